import Verif.Tree.Whole
/-!
# `c_tree_rb_verify` accepts every tree
-/
namespace CC.Tree
open CC CC.Tac T
open CC.CList (Elem nodes vals firstN lastN)
variable {V β : Type} {nf : Prop} {E : Env V} {a h : Nat} {g : Cfg} {es : List (Elem V)} {F : HProp V} {t : T (Elem V)} {Q : β → HProp V}

/-- `1` for black, `0` for red -/
def bl (c : Color) : Nat := if c = .black then 1 else 0
/-- the number of black nodes on the way from a subtree (excluded) to the root -/
def kb {α : Type} (k : Ctx α) : Nat := (k.map fun f => bl f.color).sum
@[simp] theorem kb_nil {α : Type} : kb ([] : Ctx α) = 0 := rfl
@[simp] theorem kb_cons {α : Type} {f : Frame α} {k : Ctx α} : kb (f :: k) = bl f.color + kb k := rfl

theorem RB_plug_count {α : Type} {s : T α} {k : Ctx α} {N : Nat} (hN : (plug s k).RB N) : ∃ n, s.RB n ∧ N = n + kb k := by
  induction k generalizing s with
  | nil => exact ⟨N, hN, rfl⟩
  | cons f k ih =>
    obtain ⟨n, h1, h2⟩ := ih hN
    cases f with
    | L c e r =>
      cases c with
      | red => simp at h1; exact ⟨n, h1.1, by simp [bl, h2]⟩
      | black =>
        cases n with
        | zero => simp at h1
        | succ n => simp at h1; exact ⟨n, h1.1, by simp [bl, h2]; omega⟩
    | R c l e =>
      cases c with
      | red => simp at h1; exact ⟨n, h1.2.1, by simp [bl, h2]⟩
      | black =>
        cases n with
        | zero => simp at h1
        | succ n => simp at h1; exact ⟨n, h1.2, by simp [bl, h2]; omega⟩

/-- black nodes on the way from a node without left (or right) child to the root -/
theorem RB_path_left {α : Type} {c : Color} {e : α} {r : T α} {k : Ctx α} {N : Nat} (hN : (plug (node c leaf e r) k).RB N) : N = bl c + kb k := by
  obtain ⟨n, h1, h2⟩ := RB_plug_count hN
  cases c with
  | red => simp at h1; simp [h2, bl, h1.1]
  | black =>
    cases n with
    | zero => simp at h1
    | succ n => simp at h1; simp [h2, bl, h1.1]

theorem elem_mem {α : Type} {k : Ctx α} {f : Frame α} (hf : f ∈ k) : f.elem ∈ before k ++ after k := by
  induction k with
  | nil => simp at hf
  | cons f' k ih =>
    rcases List.mem_cons.1 hf with rfl | hf
    · cases f <;> simp
    · have := ih hf
      cases f' <;> simp only [before_L, before_R, after_L, after_R, List.mem_append, List.mem_cons] at this ⊢ <;> grind

theorem not_root (hf : Facts a h t.toList) {c : Color} {l r : T (Elem V)} {e : Elem V} {f : Frame (Elem V)} {k : Ctx (Elem V)} (ht : t = plug (node c l e r) (f :: k)) :
    e.node ≠ rootA t := by
  have h1 : rootA t = rootK e.node (f :: k) := by rw [ht, rootA_plug]; rfl
  obtain ⟨f', hf', he⟩ := rootK_mem (x := e.node) (f := f) (k := k)
  rw [h1, he]
  have hm := elem_mem hf'
  have hl := tree_mid ht
  have hn := hf.nodup
  rw [hl] at hn
  rcases List.mem_append.1 hm with hm | hm
  · refine fun h => nodes_ne (A := before (f :: k) ++ l.toList) (B := e :: (r.toList ++ after (f :: k))) hn (List.mem_append_left _ hm) (by simp) h.symm
  · refine nodes_ne (A := before (f :: k) ++ l.toList ++ [e]) (B := r.toList ++ after (f :: k)) ?_ (by simp) (List.mem_append_right _ hm)
    simpa using hn

theorem isBlack_cps {c : Color} {l r : T (Elem V)} {e : Elem V} {k : Ctx (Elem V)} {K : Bool → M V β} (hf : Facts a h t.toList) (ht : t = plug (node c l e r) k)
    (hk : Triple nf (isShape a h g t ∗ F) (K (c == .black)) Q) : Triple nf (isShape a h g t ∗ F) (isBlack e.node >>= K) Q := by
  unfold isBlack
  rw [if_neg (e_ne_zero hf ht), bind_assoc]
  refine ldN_reads (rd_color ht) ?_
  rw [pure_bind]
  have : (c.code == BLACK) = (c == .black) := by cases c <;> rfl
  rw [this]
  exact hk

theorem isRed_cps {c : Color} {l r : T (Elem V)} {e : Elem V} {k : Ctx (Elem V)} {K : Bool → M V β} (hf : Facts a h t.toList) (ht : t = plug (node c l e r) k)
    (hk : Triple nf (isShape a h g t ∗ F) (K (c == .red)) Q) : Triple nf (isShape a h g t ∗ F) (isRed e.node >>= K) Q := by
  unfold isRed
  rw [if_neg (e_ne_zero hf ht), bind_assoc]
  refine ldN_reads (rd_color ht) ?_
  rw [pure_bind]
  have : (c.code == RED) = (c == .red) := by cases c <;> rfl
  rw [this]
  exact hk

theorem blackCountLoop_cps {c : Color} {l r : T (Elem V)} {e : Elem V} {k : Ctx (Elem V)} {n : Nat} {K : Nat → M V β} (hf : Facts a h t.toList) (ht : t = plug (node c l e r) k)
    (hk : Triple nf (isShape a h g t ∗ F) (K (n + bl c + kb k)) Q) : Triple nf (isShape a h g t ∗ F) (blackCountLoop e.node (rootA t) n >>= K) Q := by
  induction k generalizing c l e r n with
  | nil =>
    rw [blackCountLoop, bind_assoc]
    refine isBlack_cps hf ht ?_
    rw [ht]
    simp only [plug_nil, rootA_node, ne_eq, not_true_eq_false, ↓reduceIte, pure_bind]
    rw [ht] at hk
    have : (if (c == .black) = true then n + 1 else n) = n + bl c := by cases c <;> rfl
    rw [this]
    simpa using hk
  | cons f k ih =>
    rw [blackCountLoop, bind_assoc]
    refine isBlack_cps hf ht ?_
    dsimp only
    rw [if_pos (not_root hf ht), bind_assoc]
    refine ldN_reads (rd_parent ht) ?_
    have : (if (c == .black) = true then n + 1 else n) = n + bl c := by cases c <;> rfl
    rw [this]
    cases f with
    | L c' e' r' =>
      refine ih (c := c') (l := node c l e r) (e := e') (r := r') ht ?_
      simpa [Nat.add_assoc] using hk
    | R c' l' e' =>
      refine ih (c := c') (l := l') (e := e') (r := node c l e r) ht ?_
      simpa [Nat.add_assoc] using hk

theorem blackCount_cps {c : Color} {l r : T (Elem V)} {e : Elem V} {k : Ctx (Elem V)} {K : Nat → M V β} (hf : Facts a h t.toList) (ht : t = plug (node c l e r) k)
    (hk : Triple nf (isShape a h g t ∗ F) (K (bl c + kb k)) Q) : Triple nf (isShape a h g t ∗ F) (blackCount e.node (rootA t) >>= K) Q := by
  unfold blackCount
  have h0 := e_ne_zero hf ht
  have h1 : rootA t ≠ 0 := by
    obtain ⟨y, hy, he⟩ := rootA_mem (s := t) (by rintro rfl; have := tree_mid ht; simp at this)
    rw [he]; exact (hf.ne y hy).2.1
  step
  step
  · simpa using h0
  step
  step
  · simpa using h1
  exact blackCountLoop_cps hf ht (by simpa using hk)

theorem nodeLtNode_cps {X Y X' Y' : List (Elem V)} {e e' : Elem V} {K : Bool → M V β} (ht : t.toList = X ++ e :: Y) (ht' : t.toList = X' ++ e' :: Y')
    (hk : Triple nf (isShape a h g t ∗ F) (K (klt E g (ek E g e) (ek E g e'))) Q) : Triple nf (isShape a h g t ∗ F) (nodeLtNode E a e.node e'.node >>= K) Q := by
  unfold nodeLtNode
  simp only [bind_assoc, pure_bind]
  exact ldN_reads rd_tcmp (ldN_reads rd_tkov (ldN_reads (rd_box ht) (ldV_reads (rd_val ht) (ldN_reads (rd_box ht') (ldV_reads (rd_val ht') hk)))))

theorem verifyNode_cps {c : Color} {l r : T (Elem V)} {e : Elem V} {k : Ctx (Elem V)} {N : Nat} {K : Bool → M V β} (hf : Facts a h t.toList) (hs : KSorted E g t.toList)
    (hN : t.RB N) (ht : t = plug (node c l e r) k)
    (hk : Triple nf (isShape a h g t ∗ F) (K true) Q) : Triple nf (isShape a h g t ∗ F) (verifyNode E a e.node N >>= K) Q := by
  have hmid := tree_mid ht
  have hsub : ∃ n, (node c l e r).RB n := by
    obtain ⟨n, h1, _⟩ := RB_plug_count (ht ▸ hN)
    exact ⟨n, h1⟩
  have hs' := KSorted.iff.1 hs
  rw [hmid, List.pairwise_append, List.pairwise_cons] at hs'
  unfold verifyNode
  simp only [bind_assoc]
  refine ldN_reads (rd_left ht) ?_
  refine ldN_reads (rd_right ht) ?_
  refine isRed_cps hf ht ?_
  -- the color check
  have step1 : ∀ K' : Bool → M V β, Triple nf (isShape a h g t ∗ F) (K' true) Q →
      Triple nf (isShape a h g t ∗ F) ((if (c == Color.red) = true then do
        let bl ← (if rootA l ≠ 0 then isBlack (rootA l) else pure true)
        let br ← (if rootA r ≠ 0 then isBlack (rootA r) else pure true)
        pure (bl && br)
      else pure true) >>= K') Q := by
    intro K' hK'
    cases c with
    | black => simpa using hK'
    | red =>
      obtain ⟨n, hn⟩ := hsub
      simp only [RB_red] at hn
      simp only [beq_self_eq_true, ↓reduceIte, bind_assoc]
      have sub : ∀ (s : T (Elem V)) (k' : Ctx (Elem V)), t = plug s k' → s.color = .black → ∀ K'' : Bool → M V β, Triple nf (isShape a h g t ∗ F) (K'' true) Q →
          Triple nf (isShape a h g t ∗ F) ((if rootA s ≠ 0 then isBlack (rootA s) else pure true) >>= K'') Q := by
        intro s k' hs hc K'' hK''
        cases s with
        | leaf => simpa using hK''
        | node c' l' e' r' =>
          simp only [color_node] at hc
          subst hc
          rw [rootA_node, if_pos (e_ne_zero hf hs)]
          exact isBlack_cps hf hs hK''
      refine sub l (.L .red e r :: k) ht hn.2.2.1 _ ?_
      refine sub r (.R .red l e :: k) ht hn.2.2.2 _ ?_
      rw [pure_bind]
      exact hK'
  refine step1 _ ?_
  simp only [Bool.not_true, Bool.false_eq_true, ↓reduceIte, bind_assoc]
  -- the order checks
  have step2 : ∀ K' : Bool → M V β, Triple nf (isShape a h g t ∗ F) (K' false) Q →
      Triple nf (isShape a h g t ∗ F) ((if rootA l ≠ 0 then nodeLtNode E a e.node (rootA l) else pure false) >>= K') Q := by
    intro K' hK'
    cases l with
    | leaf => simpa using hK'
    | node c' l' e' r' =>
      have ht' : t = plug (node c' l' e' r') (.L c e r :: k) := ht
      rw [rootA_node, if_pos (e_ne_zero hf ht')]
      refine nodeLtNode_cps hmid (tree_mid ht') ?_
      have : klt E g (ek E g e) (ek E g e') = false := hs'.2.2 e' (by simp) e (by simp)
      rw [this]
      exact hK'
  refine step2 _ ?_
  simp only [Bool.false_eq_true, ↓reduceIte, bind_assoc]
  have step3 : ∀ K' : Bool → M V β, Triple nf (isShape a h g t ∗ F) (K' false) Q →
      Triple nf (isShape a h g t ∗ F) ((if rootA r ≠ 0 then nodeLtNode E a (rootA r) e.node else pure false) >>= K') Q := by
    intro K' hK'
    cases r with
    | leaf => simpa using hK'
    | node c' l' e' r' =>
      have ht' : t = plug (node c' l' e' r') (.R c l e :: k) := ht
      rw [rootA_node, if_pos (e_ne_zero hf ht')]
      refine nodeLtNode_cps (tree_mid ht') hmid ?_
      have : klt E g (ek E g e') (ek E g e) = false := hs'.2.1.1 e' (by simp)
      rw [this]
      exact hK'
  refine step3 _ ?_
  simp only [Bool.false_eq_true, ↓reduceIte]
  split
  · rename_i hlr
    have hl : l = leaf := by
      cases l with
      | leaf => rfl
      | node c' l' e' r' => exact absurd hlr.1 (e_ne_zero hf (show t = plug (node c' l' e' r') (.L c e r :: k) from ht))
    subst hl
    rw [bind_assoc]
    refine root_cps ?_
    rw [bind_assoc]
    refine blackCount_cps hf ht ?_
    rw [pure_bind, ← RB_path_left (ht ▸ hN), beq_self_eq_true]
    exact hk
  · rw [pure_bind]
    exact hk

theorem verifyLoop_cps {X W : List (Elem V)} {N : Nat} {K : Bool → M V β} (hf : Facts a h t.toList) (hs : KSorted E g t.toList)
    (hN : t.RB N) (ht : t.toList = X ++ W) (hk : Triple nf (isShape a h g t ∗ F) (K true) Q) :
    Triple nf (isShape a h g t ∗ F) (verifyLoop E a (firstN W h) h N >>= K) Q := by
  induction W generalizing X with
  | nil =>
    rw [verifyLoop, CList.firstN_nil, if_neg (by simp), pure_bind]
    exact hk
  | cons e W ih =>
    have hne := hf.ne e (by rw [ht]; simp)
    obtain ⟨c, l, r, k, htk, hX, hY⟩ := exists_ctx ht
    rw [verifyLoop, CList.firstN_cons, if_pos hne.1]
    step
    step
    · simpa using hne.2.1
    simp only [bind_assoc]
    refine verifyNode_cps hf hs hN htk ?_
    simp only [Bool.not_true, Bool.false_eq_true, ↓reduceIte, bind_assoc]
    refine increment_cps ht ?_
    exact ih (X := X ++ [e]) (by rw [ht]; simp)

theorem rbVerify_spec (hs : KSorted E g es) : Triple nf (isTree a h g es ∗ F) (rbVerify E a) (fun r => ⌜r = true⌝ ∗ isTree a h g es ∗ F) := by
  refine with_tree fun t h1 h2 h3 => ?_
  refine with_facts fun hf => ?_
  rw [← h1] at hs
  unfold rbVerify
  rw [if_neg hf.a0]
  have fin : Triple nf (isShape a h g t ∗ F) (pure true) (fun r => ⌜r = true⌝ ∗ isTree a h g es ∗ F) := by
    refine Triple.ret (ent_pure_right rfl ?_)
    exact sep_mono (shape_tree h1 h2 h3) (ent_refl F)
  refine ldN_reads rd_count ?_
  refine begin_cps h3 ?_
  refine end_cps h3 ?_
  refine ldN_reads rd_header ?_
  refine ldN_reads rd_hleft ?_
  refine ldN_reads rd_hright ?_
  refine ldN_reads rd_hroot ?_
  refine ldN_reads rd_hcolor ?_
  cases t with
  | leaf =>
    simp only [toList_leaf, List.length_nil, CList.firstN_nil, CList.lastN_nil, rootA_leaf, true_or, ↓reduceIte, BEq.rfl, Bool.and_self]
    exact fin
  | node c l e r =>
    obtain ⟨hc, N, hN⟩ := h2
    simp only [color_node] at hc
    subst hc
    have hlen : (node Color.black l e r).toList.length ≠ 0 := by simp
    have hfirst : firstN (node Color.black l e r).toList h ≠ h := by
      cases hl : (node Color.black l e r).toList with
      | nil => simp at hl
      | cons y ys => exact (hf.ne y (by rw [hl]; simp)).1
    have ht0 : node Color.black l e r = plug (node .black l e r) [] := rfl
    rw [if_neg (by simp only [hlen, hfirst, or_self, not_false_eq_true])]
    unfold isRed
    rw [if_neg hf.h0, bind_assoc]
    refine ldN_reads rd_hcolor ?_
    rw [pure_bind]
    rw [rootA_node]
    refine isBlack_cps hf ht0 ?_
    refine ldN_reads (rd_parent ht0) ?_
    rw [if_neg (by simp)]
    refine leftmost_cps ?_
    -- the leftmost node has no left child
    obtain ⟨e0, Y0, hl0⟩ : ∃ e0 Y0, (node Color.black l e r).toList = e0 :: Y0 := List.exists_cons_of_ne_nil (by simp)
    obtain ⟨c1, r1, k1, ht1, hb1, _⟩ := hole_first hl0
    have ht2 : node Color.black l e r = plug (node c1 leaf e0 r1) k1 := ht1
    rw [hl0, CList.firstN_cons]
    have hroot : e.node = rootA (node Color.black l e r) := rfl
    rw [hroot]
    refine blackCount_cps hf ht2 ?_
    step
    · simpa using hf.h0
    have hN1 := RB_path_left (ht2 ▸ hN)
    rw [← hN1]
    have := verifyLoop_cps (nf := nf) (E := E) (F := F) (Q := fun r => ⌜r = true⌝ ∗ isTree a h g es ∗ F) (X := []) (W := e0 :: Y0) (K := fun ok => if (!ok) = true then pure false else do
        let lm ← leftmost a
        let mn ← minimum (rootA (node Color.black l e r))
        let rm ← rightmost a
        let mx ← maximum (rootA (node Color.black l e r))
        pure (lm == mn && rm == mx)) hf hs hN (by rw [hl0]; rfl) ?_
    · exact this
    simp only [Bool.not_true, Bool.false_eq_true, ↓reduceIte]
    refine leftmost_cps ?_
    refine minimum_cps (s := node Color.black l e r) (k := []) rfl ?_
    refine rightmost_cps ?_
    refine maximum_cps (s := node Color.black l e r) (k := []) rfl ?_
    have e1 : firstN (node Color.black l e r).toList h = firstN (node Color.black l e r).toList 0 := by rw [hl0]; rfl
    have e2 : lastN (node Color.black l e r).toList h = lastN (node Color.black l e r).toList 0 := by
      obtain ⟨X', y, hx⟩ := mem_last (X := (node Color.black l e r).toList) (by simp)
      rw [hx, CList.lastN_append_cons, CList.lastN_append_cons]
    rw [e1, e2]
    simp only [BEq.rfl, Bool.and_self]
    exact fin

end CC.Tree
