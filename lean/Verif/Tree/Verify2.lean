import Verif.Tree.Verify
import Verif.Spec.RbCheck
/-!
# What `c_tree_rb_verify` accepts, exactly
-/
namespace CC.Tree
open CC CC.Tac T
open CC.CList (Elem nodes vals firstN lastN)
variable {V β : Type} {nf : Prop} {E : Env V} {a h : Nat} {g : Cfg} {es : List (Elem V)} {F : HProp V} {t : T (Elem V)} {Q : β → HProp V}

/-- the tests at one node with `p` black nodes above it -/
def nodeFlag {α : Type} (lt : α → α → Bool) (N p : Nat) (c : Color) (l : T α) (e : α) (r : T α) : Bool :=
  (c == .black || (l.color == .black && r.color == .black)) && (l.top.all fun x => !lt e x) && (r.top.all fun x => !lt x e) &&
    (!(l.top.isNone && r.top.isNone) || bl c + p == N)

/-- the results of the tests at all nodes, in order -/
def flags {α : Type} (lt : α → α → Bool) (N : Nat) : Nat → T α → List Bool
  | _, .leaf => []
  | p, .node c l e r => flags lt N (bl c + p) l ++ nodeFlag lt N p c l e r :: flags lt N (bl c + p) r

theorem flags_length {α : Type} {lt : α → α → Bool} {N p : Nat} {t : T α} : (flags lt N p t).length = t.toList.length := by
  induction t generalizing p with
  | leaf => rfl
  | node c l e r ihl ihr => simp [flags, ihl, ihr]

theorem flags_plug {α : Type} {lt : α → α → Bool} {N : Nat} {s : T α} {k : Ctx α} :
    ∃ A B, A.length = (before k).length ∧ flags lt N 0 (plug s k) = A ++ flags lt N (kb k) s ++ B := by
  induction k generalizing s with
  | nil => exact ⟨[], [], rfl, by simp⟩
  | cons f k ih =>
    cases f with
    | L c e r =>
      obtain ⟨A, B, h1, h2⟩ := ih (s := node c s e r)
      refine ⟨A, nodeFlag lt N (kb k) c s e r :: flags lt N (bl c + kb k) r ++ B, by simpa using h1, ?_⟩
      show flags lt N 0 (plug (node c s e r) k) = _
      rw [h2]; simp [flags, Frame.color]
    | R c l e =>
      obtain ⟨A, B, h1, h2⟩ := ih (s := node c l e s)
      refine ⟨A ++ flags lt N (bl c + kb k) l ++ [nodeFlag lt N (kb k) c l e s], B, by simp [h1, flags_length], ?_⟩
      show flags lt N 0 (plug (node c l e s) k) = _
      rw [h2]; simp [flags, Frame.color]

theorem flags_at {α : Type} {lt : α → α → Bool} {N : Nat} {c : Color} {l r : T α} {e : α} {k : Ctx α} :
    ∃ A B, A.length = (before k ++ l.toList).length ∧ flags lt N 0 (plug (node c l e r) k) = A ++ nodeFlag lt N (kb k) c l e r :: B := by
  obtain ⟨A, B, h1, h2⟩ := flags_plug (lt := lt) (N := N) (s := node c l e r) (k := k)
  exact ⟨A ++ flags lt N (bl c + kb k) l, flags lt N (bl c + kb k) r ++ B, by simp [h1, flags_length], by rw [h2]; simp [flags]⟩

/-- the order of two elements -/
def elt (E : Env V) (g : Cfg) (x y : Elem V) : Bool := klt E g (ek E g x) (ek E g y)

theorem verifyNode_any {c : Color} {l r : T (Elem V)} {e : Elem V} {k : Ctx (Elem V)} {N : Nat} {K : Bool → M V β} (hf : Facts a h t.toList)
    (ht : t = plug (node c l e r) k) (hk : Triple nf (isShape a h g t ∗ F) (K (nodeFlag (elt E g) N (kb k) c l e r)) Q) :
    Triple nf (isShape a h g t ∗ F) (verifyNode E a e.node N >>= K) Q := by
  have hmid := tree_mid ht
  unfold verifyNode
  simp only [bind_assoc]
  refine ldN_reads (rd_left ht) ?_
  refine ldN_reads (rd_right ht) ?_
  refine isRed_cps hf ht ?_
  have sub : ∀ (s : T (Elem V)) (k' : Ctx (Elem V)), t = plug s k' → ∀ K'' : Bool → M V β, Triple nf (isShape a h g t ∗ F) (K'' (s.color == .black)) Q →
      Triple nf (isShape a h g t ∗ F) ((if rootA s ≠ 0 then isBlack (rootA s) else pure true) >>= K'') Q := by
    intro s k' hs K'' hK''
    cases s with
    | leaf => simpa using hK''
    | node c' l' e' r' =>
      rw [rootA_node, if_pos (e_ne_zero hf hs)]
      exact isBlack_cps hf hs hK''
  have step1 : ∀ K' : Bool → M V β, Triple nf (isShape a h g t ∗ F) (K' (c == .black || (l.color == .black && r.color == .black))) Q →
      Triple nf (isShape a h g t ∗ F) ((if (c == Color.red) = true then do
        let bl ← (if rootA l ≠ 0 then isBlack (rootA l) else pure true)
        let br ← (if rootA r ≠ 0 then isBlack (rootA r) else pure true)
        pure (bl && br)
      else pure true) >>= K') Q := by
    intro K' hK'
    cases c with
    | black => simpa using hK'
    | red =>
      simp only [beq_self_eq_true, ↓reduceIte, bind_assoc]
      refine sub l (.L .red e r :: k) ht _ ?_
      refine sub r (.R .red l e :: k) ht _ ?_
      rw [pure_bind]
      exact hK'
  refine step1 _ ?_
  cases h1 : (c == .black || (l.color == .black && r.color == .black)) with
  | false =>
    simp only [Bool.not_false, ↓reduceIte, pure_bind]
    unfold nodeFlag at hk
    rw [h1] at hk
    exact hk
  | true =>
  simp only [Bool.not_true, Bool.false_eq_true, ↓reduceIte, bind_assoc]
  have step2 : ∀ K' : Bool → M V β, Triple nf (isShape a h g t ∗ F) (K' (!(l.top.all fun x => !elt E g e x))) Q →
      Triple nf (isShape a h g t ∗ F) ((if rootA l ≠ 0 then nodeLtNode E a e.node (rootA l) else pure false) >>= K') Q := by
    intro K' hK'
    cases l with
    | leaf => simpa [top] using hK'
    | node c' l' e' r' =>
      have ht' : t = plug (node c' l' e' r') (.L c e r :: k) := ht
      rw [rootA_node, if_pos (e_ne_zero hf ht')]
      refine nodeLtNode_cps hmid (tree_mid ht') ?_
      simpa [top, elt] using hK'
  refine step2 _ ?_
  cases h2 : (l.top.all fun x => !elt E g e x) with
  | false =>
    simp only [Bool.not_false, ↓reduceIte, pure_bind]
    unfold nodeFlag at hk
    rw [h1, h2] at hk
    exact hk
  | true =>
  simp only [Bool.not_true, Bool.false_eq_true, ↓reduceIte, bind_assoc]
  have step3 : ∀ K' : Bool → M V β, Triple nf (isShape a h g t ∗ F) (K' (!(r.top.all fun x => !elt E g x e))) Q →
      Triple nf (isShape a h g t ∗ F) ((if rootA r ≠ 0 then nodeLtNode E a (rootA r) e.node else pure false) >>= K') Q := by
    intro K' hK'
    cases r with
    | leaf => simpa [top] using hK'
    | node c' l' e' r' =>
      have ht' : t = plug (node c' l' e' r') (.R c l e :: k) := ht
      rw [rootA_node, if_pos (e_ne_zero hf ht')]
      refine nodeLtNode_cps (tree_mid ht') hmid ?_
      simpa [top, elt] using hK'
  refine step3 _ ?_
  cases h3 : (r.top.all fun x => !elt E g x e) with
  | false =>
    simp only [Bool.not_false, ↓reduceIte, pure_bind]
    unfold nodeFlag at hk
    rw [h1, h2, h3] at hk
    exact hk
  | true =>
  simp only [Bool.not_true, Bool.false_eq_true, ↓reduceIte]
  have hz : ∀ (s : T (Elem V)) (k' : Ctx (Elem V)), t = plug s k' → (rootA s = 0 ↔ s.top.isNone = true) := by
    intro s k' hs
    cases s with
    | leaf => simp [top]
    | node c' l' e' r' => simp [top, e_ne_zero hf hs]
  have hl := hz l (.L c e r :: k) ht
  have hr := hz r (.R c l e :: k) ht
  unfold nodeFlag at hk
  rw [h1, h2, h3] at hk
  by_cases hlr : rootA l = 0 ∧ rootA r = 0
  · rw [if_pos hlr, bind_assoc]
    refine root_cps ?_
    rw [bind_assoc]
    refine blackCount_cps hf ht ?_
    rw [pure_bind]
    rw [hl.1 hlr.1, hr.1 hlr.2] at hk
    simpa using hk
  · rw [if_neg hlr, pure_bind]
    have : (l.top.isNone && r.top.isNone) = false := by
      rw [Bool.eq_false_iff, ne_eq, Bool.and_eq_true, ← hl, ← hr]; exact hlr
    rw [this] at hk
    simpa using hk

theorem verifyLoop_any {X W : List (Elem V)} {N : Nat} {K : Bool → M V β} (hf : Facts a h t.toList) (ht : t.toList = X ++ W)
    (hk : Triple nf (isShape a h g t ∗ F) (K (((flags (elt E g) N 0 t).drop X.length).all id)) Q) :
    Triple nf (isShape a h g t ∗ F) (verifyLoop E a (firstN W h) h N >>= K) Q := by
  induction W generalizing X with
  | nil =>
    rw [verifyLoop, CList.firstN_nil, if_neg (by simp), pure_bind]
    have : (flags (elt E g) N 0 t).drop X.length = [] := by
      apply List.drop_eq_nil_of_le
      rw [flags_length, ht]; simp
    rw [this] at hk
    exact hk
  | cons e W ih =>
    have hne := hf.ne e (by rw [ht]; simp)
    obtain ⟨c, l, r, k, htk, hX, hY⟩ := exists_ctx ht
    obtain ⟨A, B, hA, hfl⟩ := flags_at (lt := elt E g) (N := N) (c := c) (l := l) (r := r) (e := e) (k := k)
    rw [← htk] at hfl
    rw [← hX] at hA
    have hd : (flags (elt E g) N 0 t).drop X.length = nodeFlag (elt E g) N (kb k) c l e r :: B := by
      rw [hfl, ← hA, List.drop_left]
    have hd' : (flags (elt E g) N 0 t).drop (X ++ [e]).length = B := by
      rw [hfl, List.length_append, ← hA, show A.length + [e].length = A.length + 1 from rfl, ← List.drop_drop, List.drop_left]; rfl
    rw [hd] at hk
    rw [verifyLoop, CList.firstN_cons, if_pos hne.1]
    step
    step
    · simpa using hne.2.1
    simp only [bind_assoc]
    refine verifyNode_any hf htk ?_
    cases hfg : nodeFlag (elt E g) N (kb k) c l e r with
    | false =>
      rw [hfg] at hk
      simpa using hk
    | true =>
      rw [hfg] at hk
      simp only [Bool.not_true, Bool.false_eq_true, ↓reduceIte, bind_assoc]
      refine increment_cps ht ?_
      refine ih (X := X ++ [e]) (by rw [ht]; simp) ?_
      rw [hd']
      simpa using hk

/-- the result of `c_tree_rb_verify` -/
def accept {α : Type} (lt : α → α → Bool) : T α → Bool
  | .leaf => true
  | .node c l e r => c == .black && (flags lt (T.leftBlacks (node c l e r)) 0 (node c l e r)).all id

theorem leftBlacks_plug {α : Type} {s : T α} {k : Ctx α} (hb : before k = []) : (plug s k).leftBlacks = s.leftBlacks + kb k := by
  induction k generalizing s with
  | nil => rfl
  | cons f k ih =>
    cases f with
    | L c e r =>
      have := ih (s := node c s e r) (by simpa using hb)
      show (plug (node c s e r) k).leftBlacks = _
      rw [this, kb_cons]; show one c + s.leftBlacks + kb k = s.leftBlacks + (bl c + kb k)
      unfold one bl; omega
    | R c l e => simp at hb

theorem rbVerify_any (hv : g.vt ≠ 0) : Triple nf (isShape a h g t ∗ F) (rbVerify E a) (fun r => ⌜r = accept (elt E g) t⌝ ∗ isShape a h g t ∗ F) := by
  refine with_facts fun hf => ?_
  unfold rbVerify
  rw [if_neg hf.a0]
  refine ldN_reads rd_count ?_
  refine begin_cps hv ?_
  refine end_cps hv ?_
  refine ldN_reads rd_header ?_
  refine ldN_reads rd_hleft ?_
  refine ldN_reads rd_hright ?_
  refine ldN_reads rd_hroot ?_
  refine ldN_reads rd_hcolor ?_
  cases t with
  | leaf =>
    simp only [toList_leaf, List.length_nil, CList.firstN_nil, CList.lastN_nil, rootA_leaf, true_or, ↓reduceIte, BEq.rfl, Bool.and_self]
    exact Triple.ret (ent_pure_right rfl (ent_refl _))
  | node c l e r =>
    have hlen : (node c l e r).toList.length ≠ 0 := by simp
    have hfirst : firstN (node c l e r).toList h ≠ h := by
      cases hl : (node c l e r).toList with
      | nil => simp at hl
      | cons y ys => exact (hf.ne y (by rw [hl]; simp)).1
    have ht0 : node c l e r = plug (node c l e r) [] := rfl
    rw [if_neg (by simp only [hlen, hfirst, or_self, not_false_eq_true])]
    unfold isRed
    rw [if_neg hf.h0, bind_assoc]
    refine ldN_reads rd_hcolor ?_
    rw [pure_bind]
    rw [rootA_node]
    refine isBlack_cps hf ht0 ?_
    refine ldN_reads (rd_parent ht0) ?_
    cases c with
    | red =>
      rw [if_pos (by simp)]
      exact Triple.ret (ent_pure_right rfl (ent_refl _))
    | black =>
    rw [if_neg (by simp)]
    refine leftmost_cps ?_
    obtain ⟨e0, Y0, hl0⟩ : ∃ e0 Y0, (node Color.black l e r).toList = e0 :: Y0 := List.exists_cons_of_ne_nil (by simp)
    obtain ⟨c1, r1, k1, ht1, hb1, _⟩ := hole_first hl0
    have ht2 : node Color.black l e r = plug (node c1 leaf e0 r1) k1 := ht1
    have hroot : e.node = rootA (node Color.black l e r) := rfl
    rw [hl0, CList.firstN_cons, hroot]
    refine blackCount_cps hf ht2 ?_
    step
    · simpa using hf.h0
    have hN1 : bl c1 + kb k1 = (node Color.black l e r).leftBlacks := by rw [ht2, leftBlacks_plug hb1]; simp [leftBlacks, bl, one]
    rw [hN1]
    have := verifyLoop_any (nf := nf) (E := E) (g := g) (F := F) (Q := fun r' => ⌜r' = accept (elt E g) (node .black l e r)⌝ ∗ isShape a h g (node .black l e r) ∗ F)
      (X := []) (W := e0 :: Y0) (N := (node Color.black l e r).leftBlacks) (K := fun ok => if (!ok) = true then pure false else do
        let lm ← leftmost a
        let mn ← minimum (rootA (node Color.black l e r))
        let rm ← rightmost a
        let mx ← maximum (rootA (node Color.black l e r))
        pure (lm == mn && rm == mx)) hf (by rw [hl0]; rfl) ?_
    · exact this
    have hac : accept (elt E g) (node .black l e r) = (flags (elt E g) (T.leftBlacks (node .black l e r)) 0 (node .black l e r)).all id := by simp [accept]
    rw [hac]
    simp only [List.length_nil, List.drop_zero]
    cases hfl : (flags (elt E g) (T.leftBlacks (node .black l e r)) 0 (node .black l e r)).all id with
    | false => exact Triple.ret (ent_pure_right rfl (ent_refl _))
    | true =>
    simp only [Bool.not_true, Bool.false_eq_true, ↓reduceIte]
    refine leftmost_cps ?_
    refine minimum_cps (s := node Color.black l e r) (k := []) rfl ?_
    refine rightmost_cps ?_
    refine maximum_cps (s := node Color.black l e r) (k := []) rfl ?_
    have e1 : firstN (node Color.black l e r).toList h = firstN (node Color.black l e r).toList 0 := by rw [hl0]; rfl
    have e2 : lastN (node Color.black l e r).toList h = lastN (node Color.black l e r).toList 0 := by
      obtain ⟨X', y, hx⟩ := mem_last (X := (node Color.black l e r).toList) (by simp)
      rw [hx, CList.lastN_append_cons, CList.lastN_append_cons]
    rw [e1, e2]
    simp only [BEq.rfl, Bool.and_self]
    exact Triple.ret (ent_pure_right rfl (ent_refl _))

/-! ### The tests, read as conditions on the tree -/

theorem Blacks_node {α : Type} {c : Color} {l r : T α} {e : α} {n : Nat} :
    (node c l e r).Blacks n ↔ (l = leaf ∧ r = leaf ∧ bl c = n) ∨ (¬ (l = leaf ∧ r = leaf) ∧ ∃ m, n = bl c + m ∧ l.Blacks m ∧ r.Blacks m) := by
  cases l <;> cases r <;> simp [Blacks, bl, one]

theorem top_none {α : Type} {t : T α} : t.top.isNone = true ↔ t = leaf := by cases t <;> simp [top]

theorem nodeFlag_iff {α : Type} {lt : α → α → Bool} {N p : Nat} {c : Color} {l r : T α} {e : α} :
    nodeFlag lt N p c l e r = true ↔ (c = .red → l.color = .black ∧ r.color = .black) ∧ (∀ x, l.top = some x → lt e x = false) ∧ (∀ x, r.top = some x → lt x e = false) ∧
      (l = leaf → r = leaf → N = p + bl c) := by
  unfold nodeFlag
  simp only [Bool.and_eq_true, Bool.or_eq_true, beq_iff_eq, Option.all_eq_true, Bool.not_eq_true', Bool.and_eq_false_iff, Bool.eq_false_iff, ne_eq, top_none, and_assoc]
  refine and_congr ?_ (and_congr Iff.rfl (and_congr Iff.rfl ?_))
  · cases c <;> simp
  · constructor
    · intro h h1 h2
      rcases h with h | h
      · simp [h1, h2] at h
      · omega
    · intro h
      by_cases h1 : l = leaf
      · by_cases h2 : r = leaf
        · right; have := h h1 h2; omega
        · left; exact fun h => h2 h.2
      · left; exact fun h => h1 h.1

theorem flags_all {α : Type} {lt : α → α → Bool} {N p : Nat} {t : T α} (h0 : t ≠ leaf) :
    (flags lt N p t).all id = true ↔ t.NoRedRed ∧ t.LocallyOrdered lt ∧ ∃ m, N = p + m ∧ t.Blacks m := by
  induction t generalizing p with
  | leaf => exact absurd rfl h0
  | node c l e r ihl ihr =>
    have hs : (flags lt N p (node c l e r)).all id = true ↔ (flags lt N (bl c + p) l).all id = true ∧ nodeFlag lt N p c l e r = true ∧ (flags lt N (bl c + p) r).all id = true := by
      simp [flags, List.all_append]
    rw [hs, nodeFlag_iff]
    simp only [NoRedRed, LocallyOrdered, Blacks_node]
    by_cases hl : l = leaf
    · subst hl
      by_cases hr : r = leaf
      · subst hr
        simp [flags, NoRedRed, LocallyOrdered, top]
      · rw [ihr hr]
        simp only [flags, NoRedRed, LocallyOrdered, Blacks, hr, top]
        simp
        constructor
        · rintro ⟨⟨h1, h2⟩, h3, h4, m, h5, h6⟩
          exact ⟨⟨h1, h3⟩, ⟨h2, h4⟩, bl c + m, by omega, m, rfl, h6⟩
        · rintro ⟨⟨h1, h3⟩, ⟨h2, h4⟩, n, h5, m, rfl, h6⟩
          exact ⟨⟨h1, h2⟩, h3, h4, m, by omega, h6⟩
    · rw [ihl hl]
      by_cases hr : r = leaf
      · subst hr
        simp only [flags, NoRedRed, LocallyOrdered, Blacks, hl, top]
        simp
        constructor
        · rintro ⟨⟨h3, h4, m, h5, h6⟩, h1, h2⟩
          exact ⟨⟨h1, h3⟩, ⟨h2, h4⟩, bl c + m, by omega, m, rfl, h6⟩
        · rintro ⟨⟨h1, h3⟩, ⟨h2, h4⟩, n, h5, m, rfl, h6⟩
          exact ⟨⟨h3, h4, m, by omega, h6⟩, h1, h2⟩
      · rw [ihr hr]
        simp only [hl, hr]
        simp
        constructor
        · rintro ⟨⟨h3, h4, m, h5, h6⟩, ⟨h1, h2, h7⟩, h8, h9, m', h10, h11⟩
          obtain rfl : m' = m := by omega
          exact ⟨⟨h1, h3, h8⟩, ⟨h2, h7, h4, h9⟩, bl c + m', by omega, m', rfl, h6, h11⟩
        · rintro ⟨⟨h1, h3, h8⟩, ⟨h2, h7, h4, h9⟩, n, h5, m, rfl, h6, h11⟩
          exact ⟨⟨h3, h4, m, by omega, h6⟩, ⟨h1, h2, h7⟩, h8, h9, m, by omega, h11⟩

theorem accept_iff {α : Type} {lt : α → α → Bool} {t : T α} : accept lt t = true ↔ Accepted lt t := by
  cases t with
  | leaf => simp [accept, Accepted]
  | node c l e r =>
    unfold accept Accepted
    rw [Bool.and_eq_true, flags_all (by simp)]
    simp only [beq_iff_eq, color_node, Nat.zero_add]
    constructor
    · rintro ⟨h1, h2, h3, m, h4, h5⟩
      exact .inr ⟨h1, h2, h3, h4 ▸ h5⟩
    · rintro (h | ⟨h1, h2, h3, h4⟩)
      · simp at h
      · exact ⟨h1, h2, h3, _, rfl, h4⟩

/-- black counts of a tree in which every node has no child or two are those of a red-black tree -/
theorem full_rb {α : Type} {t : T α} {n : Nat} (hf : t.Full) (hr : t.NoRedRed) (hb : t.Blacks n) (h0 : t ≠ leaf) : t.RB n := by
  induction t generalizing n with
  | leaf => exact absurd rfl h0
  | node c l e r ihl ihr =>
    obtain ⟨h1, h2, h3⟩ := hf
    obtain ⟨h4, h5, h6⟩ := hr
    rw [Blacks_node] at hb
    rcases hb with ⟨rfl, rfl, rfl⟩ | ⟨hn, m, rfl, h7, h8⟩
    · cases c <;> simp [bl, RB]
    · have hl : l ≠ leaf := fun h => hn ⟨h, h1.1 h⟩
      have hr : r ≠ leaf := fun h => hn ⟨h1.2 h, h⟩
      have h9 := ihl h2 h5 h7 hl
      have h10 := ihr h3 h6 h8 hr
      cases c with
      | red => simp [bl, RB]; exact ⟨h9, h10, (h4 rfl).1, (h4 rfl).2⟩
      | black => simp only [bl, ↓reduceIte]; rw [Nat.add_comm]; exact ⟨h9, h10⟩

end CC.Tree
