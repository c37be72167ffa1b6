import Verif.Props.CTree
import Verif.Tree.Verify2
/-!
# C90: what `c_tree_rb_verify` accepts

`isShape a h g t` says that a heap fragment is exactly a tree object `a` (header node `h`) whose nodes are linked in the shape of `t`: **any** shape, with any colors
and any values (Verif/Tree/Rep.lean).  `Accepted` (Verif/Spec/RbCheck.lean) lists the four conditions on `t` that the check can see; `t.Good` are the red-black rules
and `KSorted` the order of all elements (Verif/Tree/RB.lean, Verif/Tree/Look.lean).
-/
namespace CC.Tree
open CC CC.Tac T
open CC.CList (Elem nodes vals firstN lastN)
variable {V : Type} {nf : Prop} {E : Env V} {a h : Nat} {g : Cfg} {F : HProp V} {t : T (Elem V)}

/-- the values of a tree -/
def T.values : T (Elem V) → T V
  | .leaf => .leaf
  | .node c l e r => .node c l.values e.val r.values

theorem values_leaf {t : T (Elem V)} (h : t.values = .leaf) : t = .leaf := by
  cases t with
  | leaf => rfl
  | node c l e r => simp [T.values] at h
theorem values_node {t : T (Elem V)} {c : Color} {l r : T V} {v : V} (h : t.values = .node c l v r) :
    ∃ l' e r', t = .node c l' e r' ∧ l'.values = l ∧ e.val = v ∧ r'.values = r := by
  cases t with
  | leaf => simp [T.values] at h
  | node c' l' e r' =>
    simp only [T.values, T.node.injEq] at h
    exact ⟨l', e, r', by rw [h.1], h.2⟩

/-- a client that builds nodes of the shape `u` below a node `p` by hand -/
def grow (p : Addr) : T V → M V (T (Elem V))
  | .leaf => pure .leaf
  | .node c l v r => do
    let n ← mallocS 5
    let b ← mallocO 1
    store (b, 1) (.obj (some v))
    let l' ← grow n l
    let r' ← grow n r
    stN (n, 1) c.code
    stN (n, 2) p
    stN (n, 3) (rootA l')
    stN (n, 4) (rootA r')
    stN (n, 5) b
    pure (.node c l' ⟨n, b, v⟩ r')

theorem grow_spec {p : Addr} {u : T V} {R : HProp V} : Triple True R (grow p u) (fun t => ⌜t.values = u⌝ ∗ tr p t ∗ R) := by
  induction u generalizing p R with
  | leaf => exact Triple.ret (ent_pure_right rfl (by rw [tr_leaf]; cancel))
  | node c l v r ihl ihr =>
    unfold grow
    apply mallocS5 (fun hn => absurd trivial hn)
    intro n x1 x2 x3 x4 x5 hn
    apply mallocO_spec (fun hn => absurd trivial hn)
    intro b hb
    simp only [raws]
    xintro y
    step
    refine Triple.bind ihl fun l' => ?_
    apply Triple.pure_left
    rintro rfl
    refine Triple.bind ihr fun r' => ?_
    apply Triple.pure_left
    rintro rfl
    steps
    refine Triple.ret (ent_pure_right rfl ?_)
    rw [tr_node]
    unfold nd elm
    cancel

/-- Every shape exists in memory. -/
theorem exists_shape (g : Cfg) (hg : g.kt ≠ 0 ∧ g.vt ≠ 0 ∧ g.kov ≠ 0 ∧ g.cmp ≠ 0) (u : T V) :
    ∃ (m : Mem V) (a h : Addr) (t : T (Elem V)), (∀ i, m.orc i ≠ 0) ∧ t.values = u ∧ isShape a h g t m.cells := by
  obtain ⟨m, ho, hm⟩ := exists_array ([] : List V) (fun _ => 1)
  have key : Triple True (emp : HProp V) (do
      let a ← create g.kt g.vt g.mt g.kov g.cmp
      let h ← header a
      let t ← grow h u
      stN (a, 7) t.toList.length
      stN (h, 2) (rootA t)
      stN (h, 3) (firstN t.toList h)
      stN (h, 4) (lastN t.toList h)
      pure (a, h, t) : M V (Addr × Addr × T (Elem V))) (fun r => ⌜r.2.2.values = u⌝ ∗ isShape r.1 r.2.1 g r.2.2) := by
    refine create_spec hg (fun h => absurd trivial h) fun a h ha => ?_
    rw [sep_emp]
    have e : (isTree a h g [] : HProp V) = isTree a h g [] ∗ emp := by rw [sep_emp]
    rw [e]
    refine with_tree fun t0 h1 h2 h3 => ?_
    have : t0 = leaf := by
      cases t0 with
      | leaf => rfl
      | node c l e r => simp at h1
    subst this
    refine ldN_reads rd_header ?_
    refine Triple.bind grow_spec fun t => ?_
    apply Triple.pure_left
    intro ht
    simp only [isShape, hdr, consts, toList_leaf, List.length_nil, CList.firstN_nil, CList.lastN_nil, rootA_leaf, tr_leaf]
    steps
    refine Triple.ret (ent_pure_right ht ?_)
    cancel
  obtain ⟨r, m', hr, ho', hm'⟩ := key.run (F := emp) (s := m) (fun _ => by rw [ho]; simp) (by rw [emp_sep]; simpa [arr] using hm)
  rw [sep_emp, hpure_sep_apply] at hm'
  exact ⟨m', r.1, r.2.1, r.2.2, by rw [ho', ho]; simp, hm'.1, hm'.2⟩

/-- On any tree-shaped memory, whatever its colors and values, c_tree_rb_verify terminates without undefined behaviour, changes nothing, and returns true exactly if
the tree is empty, or its root is black, no red node has a red child, every node is in order with its own children, and the same number of black nodes lies above
every node without children. -/
theorem C90_verify_exact (hv : g.vt ≠ 0) :
    Triple nf (isShape a h g t ∗ F) (rbVerify E a) (fun r => ⌜r = true ↔ Accepted (fun x y : Elem V => klt E g (ek E g x) (ek E g y)) t⌝ ∗ isShape a h g t ∗ F) := by
  refine Triple.post (rbVerify_any hv) fun r => ?_
  refine ent_pure_left fun h => ent_pure_right ?_ (ent_refl _)
  rw [h]
  exact accept_iff

example : ∃ (m : Mem Nat) (a h : Addr) (t : T (Elem Nat)), t.values = .node .red .leaf 7 (.node .red .leaf 3 .leaf) ∧ isShape a h natCfg t m.cells := by
  obtain ⟨m, a, h, t, _, h1, h2⟩ := exists_shape natCfg (by simp [natCfg]) (.node .red .leaf 7 (.node .red .leaf 3 .leaf))
  exact ⟨m, a, h, t, h1, h2⟩

/-- c_tree_rb_verify(NULL) is false. -/
theorem C90_null : Triple nf F (rbVerify E 0) (fun r => ⌜r = false⌝ ∗ F) := by
  unfold rbVerify
  rw [if_pos rfl]
  exact Triple.ret (ent_pure_right rfl (ent_refl _))

/-- A tree whose header claims to be empty (element count 0, or first node equal to the header) is accepted exactly if everything in the header says so: count 0,
first and last node the header itself, no root. -/
theorem C90_empty {n lm rm rt : Nat} (hv : g.vt ≠ 0) (he : n = 0 ∨ lm = h) (h0 : lm ≠ 0) :
    Triple nf (hdr a h g n lm rm ∗ fld h 2 rt ∗ F) (rbVerify E a) (fun r => ⌜r = true ↔ n = 0 ∧ lm = h ∧ rm = h ∧ rt = 0⌝ ∗ hdr a h g n lm rm ∗ fld h 2 rt ∗ F) := by
  refine Triple.fact (p := a ≠ 0 ∧ h ≠ 0) (fun m hm => ?_) fun ⟨ha, hh⟩ => ?_
  · unfold hdr consts at hm
    exact ⟨pts_ne_zero (l := (a, 0)) (v := .sz 7) (R := _) ((show _ ⊢ₛ _ by cancel) _ hm), pts_ne_zero (l := (h, 0)) (v := .sz 5) (R := _) ((show _ ⊢ₛ _ by cancel) _ hm)⟩
  unfold rbVerify hdr consts
  rw [if_neg ha]
  unfold begin_ end_ mkIter leftmost header vtype left right parent count_ colorOf
  simp only [bind_assoc, pure_bind]
  repeat (first | step | (first | (simpa using ha) | (simpa using hv) | (simpa using h0) | (simpa using hh)))
  rw [if_pos he]
  refine Triple.ret (ent_pure_right ?_ (by cancel))
  simp [RED, and_assoc]

example : ∃ (m : Mem Nat) (a h : Addr) (n lm rm rt : Nat), (n = 0 ∨ lm = h) ∧ lm ≠ 0 ∧ (hdr a h natCfg n lm rm ∗ fld h 2 rt ∗ emp) m.cells := by
  obtain ⟨m, a, h, t, _, h1, h2⟩ := exists_shape (V := Nat) natCfg (by simp [natCfg]) .leaf
  obtain rfl := values_leaf h1
  have hf := shape_facts (F := emp) (by rw [sep_emp]; exact h2)
  exact ⟨m, a, h, 0, h, h, 0, .inl rfl, hf.h0, h2⟩

/-- The part that holds: if every node has no child or two, then acceptance means that the red-black rules hold. -/
theorem C90_sound_partial (hv : g.vt ≠ 0) (hf : t.Full) :
    Triple nf (isShape a h g t ∗ F) (rbVerify E a) (fun r => ⌜r = true → t.Good⌝ ∗ isShape a h g t ∗ F) := by
  refine Triple.post (C90_verify_exact hv) fun r => ?_
  refine ent_pure_left fun h => ent_pure_right ?_ (ent_refl _)
  intro hr
  rcases h.1 hr with rfl | ⟨h1, h2, h3, h4⟩
  · exact ⟨rfl, 0, rfl⟩
  · by_cases h0 : t = leaf
    · subst h0; exact ⟨rfl, 0, rfl⟩
    · exact ⟨h1, _, full_rb hf h2 h4 h0⟩

example : ∃ (m : Mem Nat) (a h : Addr) (t : T (Elem Nat)), t.Full ∧ t.toList.length = 3 ∧ isShape a h natCfg t m.cells := by
  obtain ⟨m, a, h, t, _, h1, h2⟩ := exists_shape natCfg (by simp [natCfg]) (.node .black (.node .red .leaf 3 .leaf) 5 (.node .red .leaf 6 .leaf))
  obtain ⟨t1, e1, t2, rfl, h1, v1, h3⟩ := values_node h1
  obtain ⟨t3, e2, t4, rfl, h4, v2, h5⟩ := values_node h1
  obtain ⟨t5, e3, t6, rfl, h6, v3, h7⟩ := values_node h3
  obtain rfl := values_leaf h4
  obtain rfl := values_leaf h5
  obtain rfl := values_leaf h6
  obtain rfl := values_leaf h7
  exact ⟨m, a, h, _, by simp [T.Full], by simp, h2⟩

/-- What a run of c_tree_rb_verify returns on a memory -/
def VerifyGives (E : Env V) (a : Addr) (m : Mem V) (b : Bool) : Prop := ∃ m', rbVerify E a m = some (.ok (b, m'))

/-- c_tree_rb_verify accepts trees that are not in order: here `3 10 5 6`, with 10 below 3 on the left of 5. -/
theorem C90_order_violated : ∃ (m : Mem Nat) (a h : Addr) (t : T (Elem Nat)), isShape a h natCfg t m.cells ∧ ¬ KSorted natEnv natCfg t.toList ∧ VerifyGives natEnv a m true := by
  obtain ⟨m, a, h, t, ho, h1, h2⟩ := exists_shape natCfg (by simp [natCfg])
    (.node .black (.node .black .leaf 3 (.node .red .leaf 10 .leaf)) 5 (.node .black .leaf 6 .leaf))
  obtain ⟨r, m', hr, _, hm'⟩ := (C90_verify_exact (E := natEnv) (g := natCfg) (F := emp) (nf := True) (by simp [natCfg])).run (F := emp) (fun _ => ho) (by rw [sep_emp, sep_emp]; exact h2)
  rw [sep_emp, sep_emp, hpure_sep_apply] at hm'
  obtain ⟨t1, e1, t2, rfl, h1, v1, h3⟩ := values_node h1
  obtain ⟨t3, e2, t4, rfl, h4, v2, h5⟩ := values_node h1
  obtain ⟨t5, e3, t6, rfl, h6, v3, h7⟩ := values_node h5
  obtain ⟨t7, e4, t8, rfl, h8, v4, h9⟩ := values_node h3
  obtain rfl := values_leaf h4
  obtain rfl := values_leaf h6
  obtain rfl := values_leaf h7
  obtain rfl := values_leaf h8
  obtain rfl := values_leaf h9
  refine ⟨m, a, h, _, h2, ?_, ?_⟩
  · rw [KSorted.iff]
    simp [klt, ek, natEnv, v1, v2, v3, v4]
  · have : r = true := by
      rw [hm'.1]
      right
      simp [T.NoRedRed, T.LocallyOrdered, T.Blacks, T.leftBlacks, T.top, one, klt, ek, natEnv, v1, v2, v3, v4]
    rw [← this]
    exact ⟨m', hr⟩

/-- c_tree_rb_verify accepts trees that break the black rule: here a black root with one black child and no other. -/
theorem C90_black_violated : ∃ (m : Mem Nat) (a h : Addr) (t : T (Elem Nat)), isShape a h natCfg t m.cells ∧ ¬ t.Good ∧ VerifyGives natEnv a m true := by
  obtain ⟨m, a, h, t, ho, h1, h2⟩ := exists_shape natCfg (by simp [natCfg])
    (.node .black (.node .black .leaf 3 .leaf) 5 .leaf)
  obtain ⟨r, m', hr, _, hm'⟩ := (C90_verify_exact (E := natEnv) (g := natCfg) (F := emp) (nf := True) (by simp [natCfg])).run (F := emp) (fun _ => ho) (by rw [sep_emp, sep_emp]; exact h2)
  rw [sep_emp, sep_emp, hpure_sep_apply] at hm'
  obtain ⟨t1, e1, t2, rfl, h1, v1, h3⟩ := values_node h1
  obtain ⟨t3, e2, t4, rfl, h4, v2, h5⟩ := values_node h1
  obtain rfl := values_leaf h3
  obtain rfl := values_leaf h4
  obtain rfl := values_leaf h5
  refine ⟨m, a, h, _, h2, ?_, ?_⟩
  · rintro ⟨_, n, hn⟩
    cases n with
    | zero => simp at hn
    | succ n =>
      cases n with
      | zero => simp at hn
      | succ n => simp at hn
  · have : r = true := by
      rw [hm'.1]
      right
      simp [T.NoRedRed, T.LocallyOrdered, T.Blacks, T.leftBlacks, T.top, one, klt, ek, natEnv, v1, v2]
    rw [← this]
    exact ⟨m', hr⟩

end CC.Tree
