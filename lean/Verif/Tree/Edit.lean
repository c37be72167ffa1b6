import Verif.Tree.Look
/-!
# Insertions (plain and hinted), erasures, clearing
-/
namespace CC.Tree
open CC CC.Tac T
open CC.CList (Elem nodes vals firstN lastN)
variable {V β : Type} {nf : Prop} {E : Env V} {a h : Nat} {g : Cfg} {es : List (Elem V)} {F : HProp V}

theorem with_tree {m : M V β} {Q : β → HProp V}
    (hk : ∀ t : T (Elem V), t.toList = es → t.Good → g.vt ≠ 0 → Triple nf (isShape a h g t ∗ F) m Q) : Triple nf (isTree a h g es ∗ F) m Q := by
  unfold isTree
  rw [hex_sep]
  refine Triple.ex_left fun t => ?_
  rw [sep_assoc]
  apply Triple.pure_left
  rintro ⟨h1, h2, h3⟩
  exact hk t h1 h2 h3

/-- the same, with the bound on the height -/
theorem with_treeN {N : Nat} {m : M V β} {Q : β → HProp V} (hN : 2 * Nat.log2 (es.length + 1) + 1 ≤ N)
    (hk : ∀ t : T (Elem V), t.toList = es → t.Good → g.vt ≠ 0 → t.height + 1 ≤ N → Triple nf (isShape a h g t ∗ F) m Q) : Triple nf (isTree a h g es ∗ F) m Q :=
  with_tree fun t h1 h2 h3 => hk t h1 h2 h3 (by have := h2.height_le; rw [h1] at this; omega)

theorem shape_tree {t : T (Elem V)} (h1 : t.toList = es) (h2 : t.Good) (h3 : g.vt ≠ 0) : isShape a h g t ⊢ₛ isTree a h g es :=
  fun _ hm => ⟨t, hpure_sep_apply.2 ⟨⟨h1, h2, h3⟩, hm⟩⟩

theorem reads_shape {t : T (Elem V)} {l : Loc} {v : V} (h1 : t.toList = es) (h2 : t.Good) (h3 : g.vt ≠ 0) (hv : Reads (isTree a h g es ∗ F) l v) :
    Reads (isShape a h g t ∗ F) l v :=
  fun m hm => hv m (sep_mono (shape_tree h1 h2 h3) (ent_refl F) m hm)

/-- the elements with a key not greater than that of `v`, a new element holding `v`, the elements with a greater key -/
def insAfter (E : Env V) (g : Cfg) (v : V) (es : List (Elem V)) (e : Elem V) : List (Elem V) :=
  es.filter (fun x => !klt E g (E.kov g.kov v) (ek E g x)) ++ e :: es.filter (fun x => klt E g (E.kov g.kov v) (ek E g x))

theorem insertIterF_spec {N : Nat} {t : T (Elem V)} {k : Ctx (Elem V)} {hint : Nat} {value : Loc} {v : V} (hN : t.height + 1 ≤ N) (ht : t = plug leaf k) (hg : t.Good) (hvt : g.vt ≠ 0)
    (hs : Side E g hint v k) (hv0 : value.1 ≠ 0) (hv : Reads (isShape a h g t ∗ F) value v) :
    Triple True (isShape a h g t ∗ F) (insertIterF E N a hint (upA h k) value)
      (fun r => ∃ₛ e, ⌜r = e.node ∧ e.val = v⌝ ∗ isTree a h g (before k ++ e :: after k) ∗ F) := by
  subst ht
  unfold insertIterF
  refine Triple.bind (insertF_spec hg (by have := length_height_le (t := leaf) (k := k); omega) hvt hs hv0 hv) fun r => ?_
  refine Triple.ex_left fun t' => ?_
  apply Triple.pure_left
  rintro ⟨hg', ⟨e, rfl, he, h0, hl⟩ | ⟨h1, _⟩⟩
  · rw [← bind_pure (mkIter _ _)]
    refine mkIter_cps hvt h0 ?_
    apply Triple.ret
    apply ent_ex_right e
    refine ent_pure_right ⟨rfl, he⟩ ?_
    exact sep_mono (shape_tree hl hg' hvt) (ent_refl F)
  · exact absurd trivial h1

theorem insertEqualValueF_spec {N : Nat} {value : Loc} {v : V} (hN : 2 * Nat.log2 (es.length + 1) + 1 ≤ N) (hw : StrictWeak (klt E g)) (hs : KSorted E g es) (hv0 : value.1 ≠ 0) (hv : Reads (isTree a h g es ∗ F) value v) :
    Triple True (isTree a h g es ∗ F) (insertEqualValueF E N a value)
      (fun r => ∃ₛ e, ⌜r = e.node ∧ e.val = v⌝ ∗ isTree a h g (insAfter E g v es e) ∗ F) := by
  refine with_treeN hN fun t h1 h2 h3 hH => ?_
  have hv' := reads_shape h1 h2 h3 hv
  refine with_facts fun hf => ?_
  unfold insertEqualValueF
  step
  · simpa using hf.a0
  step
  · simpa using hv0
  refine ldN_reads rd_header ?_
  refine root_cps ?_
  subst h1
  refine descendEqF_cps (k := []) hH rfl hv' (hs.upper hw) Cut.nil trivial fun k hk hc hsd => ?_
  refine Triple.post (insertIterF_spec hH hk h2 h3 hsd hv0 hv') fun r => ?_
  have hcf := hc.filter
  rw [← hk] at hcf
  simp only [Bool.not_not] at hcf
  simp only [insAfter, hcf.1, hcf.2]
  exact ent_refl _
theorem insertEqualValue_spec {value : Loc} {v : V} (hw : StrictWeak (klt E g)) (hs : KSorted E g es) (hv0 : value.1 ≠ 0) (hv : Reads (isTree a h g es ∗ F) value v) :
    Triple True (isTree a h g es ∗ F) (insertEqualValue E a value)
      (fun r => ∃ₛ e, ⌜r = e.node ∧ e.val = v⌝ ∗ isTree a h g (insAfter E g v es e) ∗ F) :=
  Triple.le (insertEqualValueF_le E (2 * Nat.log2 (es.length + 1) + 1) a value) (insertEqualValueF_spec (Nat.le_refl _) hw hs hv0 hv)

theorem mem_last {X : List (Elem V)} (hX : X ≠ []) : ∃ X' e, X = X' ++ [e] := by
  rcases List.eq_nil_or_concat X with rfl | ⟨X', e, rfl⟩
  · exact absurd rfl hX
  · exact ⟨X', e, by simp⟩

/-- the effect of an insertion that never stores two equivalent keys, with result `r` -/
def UniqueIns (E : Env V) (g : Cfg) (v : V) (es : List (Elem V)) (r : Nat) (es' : List (Elem V)) : Prop :=
  (es' = es ∧ ∃ x ∈ es, keq E g (E.kov g.kov v) x = true ∧ r = x.node) ∨
  ((∀ x ∈ es, keq E g (E.kov g.kov v) x = false) ∧ ∃ e : Elem V, e.val = v ∧ r = e.node ∧ es' = insAfter E g v es e)

theorem insertUniqueValueF_spec {N : Nat} {value : Loc} {v : V} (hN : 2 * Nat.log2 (es.length + 1) + 1 ≤ N) (hw : StrictWeak (klt E g)) (hs : KSorted E g es) (hv0 : value.1 ≠ 0) (hv : Reads (isTree a h g es ∗ F) value v) :
    Triple True (isTree a h g es ∗ F) (insertUniqueValueF E N a value)
      (fun r => ∃ₛ es', ⌜UniqueIns E g v es r es'⌝ ∗ isTree a h g es' ∗ F) := by
  refine with_treeN hN fun t h1 h2 h3 hH => ?_
  have hv' := reads_shape h1 h2 h3 hv
  refine with_facts fun hf => ?_
  unfold insertUniqueValueF
  step
  · simpa using hf.a0
  step
  · simpa using hv0
  refine ldN_reads rd_header ?_
  refine root_cps ?_
  subst h1
  refine descendF_cps (k := []) hH rfl hv' (hs.upper hw) Cut.nil trivial fun k hk hc hsd => ?_
  dsimp only
  have hcf := hc.filter
  have hl := toList_plug (t := leaf) (k := k)
  rw [← hk, toList_leaf, List.append_nil] at hl
  rw [← hk] at hcf
  simp only [Bool.not_not] at hcf
  have hins : ∀ e, before k ++ e :: after k = insAfter E g v t.toList e := fun e => by simp only [insAfter, hcf.1, hcf.2]
  have hafter : ∀ x ∈ after k, keq E g (E.kov g.kov v) x = false := fun x hx => by
    have := hc.after x hx
    simp only [Bool.not_eq_false'] at this
    simp [keq, equivB, this]
  have hdone : (∀ x ∈ before k, keq E g (E.kov g.kov v) x = false) → Triple True (isShape a h g t ∗ F) (insertIterF E N a 0 (upA h k) value)
      (fun r => ∃ₛ es', ⌜UniqueIns E g v t.toList r es'⌝ ∗ isTree a h g es' ∗ F) := by
    intro hb
    refine Triple.post (insertIterF_spec hH hk h2 h3 hsd hv0 hv') fun r => ?_
    xintro e ⟨hr, he⟩
    xexists (before k ++ e :: after k)
    cancel
    refine Or.inr ⟨fun x hx => ?_, e, he, hr, hins e⟩
    rw [hl] at hx
    exact (List.mem_append.1 hx).elim (hb x) (hafter x)
  have h0 : upA h k ≠ 0 := by
    cases k with
    | nil => exact hf.h0
    | cons f k =>
      refine (hf.ne f.elem ?_).2.1
      rw [hl]
      cases f <;> simp
  refine mkIter_cps h3 h0 ?_
  refine leftmost_cps ?_
  -- the element before the place
  have hlast : ∀ X' z, before k = X' ++ [z] → Triple True (isShape a h g t ∗ F)
      (do let b ← nodeLtVal E a z.node value
          if b then insertIterF E N a 0 (upA h k) value else pure z.node)
      (fun r => ∃ₛ es', ⌜UniqueIns E g v t.toList r es'⌝ ∗ isTree a h g es' ∗ F) := by
    intro X' z hb
    have hzm : t.toList = X' ++ z :: after k := by rw [hl, hb]; simp
    refine nodeLtVal_cps (e := z) hzm hv' ?_
    cases hz : E.cmp g.cmp (E.kov g.kov z.val) (E.kov g.kov v)
    · simp only [Bool.false_eq_true, ↓reduceIte]
      apply Triple.ret
      apply ent_ex_right t.toList
      have hz2 := hc.before z (by simp [hb])
      simp only [Bool.not_eq_true'] at hz2
      refine ent_pure_right (Or.inl ⟨rfl, z, by rw [hzm]; simp, ?_, rfl⟩) (sep_mono (shape_tree rfl h2 h3) (ent_refl F))
      simp only [keq, equivB, hz2, Bool.not_false, Bool.true_and, Bool.not_eq_true']
      exact hz
    · simp only [↓reduceIte]
      refine hdone fun x hx => ?_
      have hxz : klt E g (ek E g x) (E.kov g.kov v) = true := by
        rw [hb] at hx
        rcases List.mem_append.1 hx with hx | hx
        · have hs' := KSorted.iff.1 hs
          rw [hzm, List.pairwise_append] at hs'
          have h4 := hs'.2.2 x hx z (by simp)
          cases h5 : klt E g (ek E g x) (E.kov g.kov v)
          · have := hw.negtrans h4 h5
            simp only [klt, ek] at this
            rw [this] at hz; cases hz
          · rfl
        · rw [List.mem_singleton.1 hx]; exact hz
      simp [keq, equivB, hxz]
  match k, hk, hc, hsd, hl, hdone, hlast with
  | [], hk, hc, hsd, hl, hdone, hlast =>
    have hcond : (endsL (V := V) [] = true) ∧ upA (V := V) h [] = firstN t.toList h := by rw [hl]; exact ⟨rfl, rfl⟩
    rw [if_pos hcond]
    exact hdone (by simp)
  | .L c e r :: k, hk, hc, hsd, hl, hdone, hlast =>
    simp only [endsL, upA_cons, Frame.elem_L, true_and, ↓reduceIte] at hdone hlast ⊢
    simp only [before_L, after_L, List.cons_append] at hl hdone hlast
    have hn := hf.nodup
    rw [hl] at hn
    have hi := firstN_eq_iff (h := h) hn
    by_cases hb : before k = []
    · have : e.node = firstN t.toList h := by rw [hl]; exact hi.2 hb
      rw [if_pos this]
      exact hdone (by rw [hb]; simp)
    · have : ¬ e.node = firstN t.toList h := by rw [hl]; exact mt hi.1 hb
      rw [if_neg this]
      refine decrementF_cps hH hl h2 hb ?_
      obtain ⟨X', z, hX'⟩ := mem_last hb
      have := hlast X' z hX'
      rw [hX', lastN_snoc]
      exact this
  | .R c l e :: k, hk, hc, hsd, hl, hdone, hlast =>
    have := hlast (before k ++ l.toList) e (by simp)
    simp only [endsL, upA_cons, Frame.elem_R, Bool.false_eq_true, false_and, ↓reduceIte, pure_bind] at this ⊢
    exact this
theorem insertUniqueValue_spec {value : Loc} {v : V} (hw : StrictWeak (klt E g)) (hs : KSorted E g es) (hv0 : value.1 ≠ 0) (hv : Reads (isTree a h g es ∗ F) value v) :
    Triple True (isTree a h g es ∗ F) (insertUniqueValue E a value)
      (fun r => ∃ₛ es', ⌜UniqueIns E g v es r es'⌝ ∗ isTree a h g es' ∗ F) :=
  Triple.le (insertUniqueValueF_le E (2 * Nat.log2 (es.length + 1) + 1) a value) (insertUniqueValueF_spec (Nat.le_refl _) hw hs hv0 hv)

/-! ### hints -/

/-- the missing left child of the first element -/
theorem hole_first {t : T (Elem V)} {e : Elem V} {Y : List (Elem V)} (hl : t.toList = e :: Y) :
    ∃ c r k, t = plug leaf (.L c e r :: k) ∧ before k = [] ∧ Y = r.toList ++ after k := by
  obtain ⟨k, hk, h1, h2⟩ := exists_hole (X := []) (Y := e :: Y) hl
  match k, hk, h1, h2 with
  | [], _, _, h2 => simp at h2
  | .L c e' r :: k, hk, h1, h2 =>
    simp only [after_L, List.cons_append, List.cons.injEq] at h2
    obtain ⟨rfl, h2⟩ := h2
    exact ⟨c, r, k, hk, by simpa using h1.symm, h2⟩
  | .R c l e' :: k, _, h1, _ => simp at h1

/-- the missing right child of the last element -/
theorem hole_last {t : T (Elem V)} {e : Elem V} {X : List (Elem V)} (hl : t.toList = X ++ [e]) :
    ∃ c l k, t = plug leaf (.R c l e :: k) ∧ after k = [] ∧ X = before k ++ l.toList := by
  obtain ⟨k, hk, h1, h2⟩ := exists_hole (X := X ++ [e]) (Y := []) (by simpa using hl)
  match k, hk, h1, h2 with
  | [], _, h1, _ => simp at h1
  | .L c e' r :: k, _, _, h2 => simp at h2
  | .R c l e' :: k, hk, h1, h2 =>
    rw [before_R, ← List.append_assoc] at h1
    obtain ⟨h4, h3⟩ := List.append_inj' h1 rfl
    simp only [List.cons.injEq, and_true] at h3
    subst h3
    exact ⟨c, l, k, hk, by simpa using h2.symm, h4⟩

/-- between two neighbours there is a missing right child of the first or a missing left child of the second one -/
theorem hole_mid {t : T (Elem V)} {b x : Elem V} {X Y : List (Elem V)} (hl : t.toList = X ++ b :: x :: Y) :
    (∃ c l k, t = plug (node c l b leaf) k ∧ X = before k ++ l.toList ∧ x :: Y = after k) ∨
    (∃ c l r k c' r' k', t = plug (node c l b r) k ∧ r ≠ leaf ∧ t = plug leaf (.L c' x r' :: k') ∧ X ++ [b] = before k' ∧ Y = r'.toList ++ after k') := by
  obtain ⟨c, l, r, k, ht, hX, hY⟩ := exists_ctx hl
  by_cases hr : r = leaf
  · subst hr
    exact Or.inl ⟨c, l, k, ht, hX, by simpa using hY⟩
  · obtain ⟨cm, m, mr, kr, hpl, hbef, hrk, hkr⟩ := spine_spec (t := r) (k := .R c l b :: k) hr
    have hk : t = plug leaf (.L cm m mr :: (kr ++ .R c l b :: k)) := by rw [ht]; exact hpl
    have h1 := toList_plug (t := leaf) (k := .L cm m mr :: (kr ++ .R c l b :: k))
    rw [← hk] at h1
    simp only [before_L, hbef, toList_leaf, List.append_nil, after_L, before_R, List.cons_append] at h1
    rw [hl, hX] at h1
    simp only [List.append_assoc, List.append_cancel_left_eq, List.cons_append, List.nil_append, List.cons.injEq, true_and] at h1
    obtain ⟨rfl, h1⟩ := h1
    refine Or.inr ⟨c, l, r, k, cm, mr, _, ht, hr, hk, ?_, h1⟩
    rw [hbef, before_R, hX]; simp

/-- inserting at a place where the order of the keys is right -/
def PlacedIns (E : Env V) (g : Cfg) (v : V) (es : List (Elem V)) (r : Nat) (es' : List (Elem V)) : Prop :=
  ∃ (A B : List (Elem V)) (e : Elem V), es = A ++ B ∧ es' = A ++ e :: B ∧ e.val = v ∧ r = e.node ∧
    (∀ x ∈ A, klt E g (E.kov g.kov v) (ek E g x) = false) ∧ (∀ x ∈ B, klt E g (ek E g x) (E.kov g.kov v) = false)

theorem insertHoleF_spec {N : Nat} {t : T (Elem V)} {k : Ctx (Elem V)} {A B : List (Elem V)} {hint : Nat} {value : Loc} {v : V} (hN : t.height + 1 ≤ N) (ht : t = plug leaf k) (hA : A = before k) (hB : B = after k) (hg : t.Good) (hvt : g.vt ≠ 0)
    (hs : Side E g hint v k) (hv0 : value.1 ≠ 0) (hv : Reads (isShape a h g t ∗ F) value v) {p : Nat} (hp : p = upA h k) :
    Triple True (isShape a h g t ∗ F) (insertIterF E N a hint p value)
      (fun r => ∃ₛ e, ⌜r = e.node ∧ e.val = v⌝ ∗ isTree a h g (A ++ e :: B) ∗ F) := by
  subst hA hB hp
  exact insertIterF_spec hN ht hg hvt hs hv0 hv

/-- if everything in `A` is smaller and everything in `B` greater, inserting between them is inserting at the only place possible -/
theorem insAfter_eq {A B : List (Elem V)} {v : V} (hA : ∀ x ∈ A, klt E g (E.kov g.kov v) (ek E g x) = false) (hB : ∀ x ∈ B, klt E g (E.kov g.kov v) (ek E g x) = true) (e : Elem V) :
    insAfter E g v (A ++ B) e = A ++ e :: B := by
  unfold insAfter
  simp only [List.filter_append]
  rw [List.filter_eq_self.2 (fun x hx => by simp [hA x hx]), List.filter_eq_nil_iff.2 (fun x hx => by simp [hB x hx]), List.filter_eq_nil_iff.2 (fun x hx => by simp [hA x hx]),
    List.filter_eq_self.2 (fun x hx => by simp [hB x hx])]
  simp

theorem lt_trans_le (hw : StrictWeak (klt E g)) {a b c : V} (h1 : klt E g a b = true) (h2 : klt E g c b = false) : klt E g a c = true := by
  cases h3 : klt E g a c
  · have := hw.negtrans h3 h2
    rw [h1] at this; cases this
  · rfl
theorem le_trans_lt (hw : StrictWeak (klt E g)) {a b c : V} (h1 : klt E g b a = false) (h2 : klt E g b c = true) : klt E g a c = true := by
  cases h3 : klt E g a c
  · have := hw.negtrans h1 h3
    rw [h2] at this; cases this
  · rfl

/-- the place between `A` and `B`, when the key is greater than the last one of `A` and smaller than the first one of `B` -/
theorem unique_place (hw : StrictWeak (klt E g)) {A B : List (Elem V)} {v : V} (hs : KSorted E g (A ++ B))
    (hA : ∀ A' b, A = A' ++ [b] → klt E g (ek E g b) (E.kov g.kov v) = true) (hB : ∀ x B', B = x :: B' → klt E g (E.kov g.kov v) (ek E g x) = true) :
    (∀ x ∈ A, klt E g (ek E g x) (E.kov g.kov v) = true) ∧ (∀ x ∈ B, klt E g (E.kov g.kov v) (ek E g x) = true) := by
  have hs' := KSorted.iff.1 hs
  rw [List.pairwise_append] at hs'
  constructor
  · intro x hx
    obtain ⟨A', b, rfl⟩ := mem_last (X := A) (by rintro rfl; simp at hx)
    have hb := hA A' b rfl
    rcases List.mem_append.1 hx with hx | hx
    · have := (List.pairwise_append.1 hs'.1).2.2 x hx b (by simp)
      exact le_trans_lt hw this hb
    · rw [List.mem_singleton.1 hx]; exact hb
  · intro x hx
    cases B with
    | nil => simp at hx
    | cons y B' =>
      have hy := hB y B' rfl
      rcases List.mem_cons.1 hx with rfl | hx
      · exact hy
      · have := (List.pairwise_cons.1 hs'.2.1).1 x hx
        exact lt_trans_le hw hy this

theorem unique_ins (hw : StrictWeak (klt E g)) {A B : List (Elem V)} {v : V} {e : Elem V} (hs : KSorted E g (A ++ B)) (he : e.val = v)
    (hA : ∀ A' b, A = A' ++ [b] → klt E g (ek E g b) (E.kov g.kov v) = true) (hB : ∀ x B', B = x :: B' → klt E g (E.kov g.kov v) (ek E g x) = true) :
    UniqueIns E g v (A ++ B) e.node (A ++ e :: B) := by
  obtain ⟨h1, h2⟩ := unique_place hw hs hA hB
  refine Or.inr ⟨fun x hx => ?_, e, he, rfl, (insAfter_eq (fun x hx => hw.asymm (h1 x hx)) h2 e).symm⟩
  rcases List.mem_append.1 hx with hx | hx
  · simp [keq, equivB, h1 x hx]
  · simp [keq, equivB, h2 x hx]

/-- with any position `X | Y` as a hint the effect is that of the insertion without a hint -/
theorem insertUniqueF_spec {N : Nat} {X Y : List (Elem V)} {value : Loc} {v : V} (hN : 2 * Nat.log2 ((X ++ Y).length + 1) + 1 ≤ N) (hw : StrictWeak (klt E g)) (hs : KSorted E g (X ++ Y)) (hv0 : value.1 ≠ 0) (hv : Reads (isTree a h g (X ++ Y) ∗ F) value v) :
    Triple True (isTree a h g (X ++ Y) ∗ F) (insertUniqueF E N a (firstN Y h) value)
      (fun r => ∃ₛ es', ⌜UniqueIns E g v (X ++ Y) r es'⌝ ∗ isTree a h g es' ∗ F) := by
  refine with_treeN hN fun t h1 h2 h3 hH => ?_
  have hv' := reads_shape h1 h2 h3 hv
  have hfall : Triple True (isShape a h g t ∗ F) (insertUniqueValueF E N a value) (fun r => ∃ₛ es', ⌜UniqueIns E g v (X ++ Y) r es'⌝ ∗ isTree a h g es' ∗ F) :=
    Triple.pre (sep_mono (shape_tree h1 h2 h3) (ent_refl F)) (insertUniqueValueF_spec hN hw hs hv0 hv)
  refine with_facts fun hf => ?_
  unfold insertUniqueF
  step
  · simpa using hf.a0
  step
  · simpa using hv0
  refine leftmost_cps ?_
  rw [h1]
  rw [h1] at hf
  by_cases hfirst : firstN Y h = firstN (X ++ Y) h
  · rw [if_pos hfirst]
    refine ldN_reads rd_count ?_
    rw [h1]
    by_cases hn : 0 < (X ++ Y).length
    · -- a non-empty tree: the hint is its first element
      have hX : X = [] := by
        cases X with
        | nil => rfl
        | cons x X => exact absurd hfirst.symm (pos_ne (X := []) (W := X) (Y := Y) (by simpa using hf))
      subst hX
      cases Y with
      | nil => simp at hn
      | cons x Y =>
        simp only [List.nil_append] at *
        rw [if_pos hn]
        refine valLtNode_cps (X := []) (Y := Y) (e := x) h1 hv' ?_
        cases hp : E.cmp g.cmp (E.kov g.kov v) (E.kov g.kov x.val)
        · simp only [Bool.false_eq_true, ↓reduceIte]
          exact hfall
        · simp only [↓reduceIte, CList.firstN_cons]
          obtain ⟨c, r, k, hk, hb, hY⟩ := hole_first h1
          refine Triple.post (insertHoleF_spec hH (A := []) (B := x :: Y) hk (by simp [hb]) (by simp [hY]) h2 h3 (Or.inr hp) hv0 hv' rfl) fun r => ?_
          xintro e ⟨hr, he⟩
          xexists ([] ++ e :: x :: Y)
          cancel
          rw [hr]
          exact unique_ins (A := []) (B := x :: Y) hw hs he (by simp) (by rintro y B' h; cases h; exact hp)
    · simp only [hn, ↓reduceIte, pure_bind, Bool.false_eq_true]
      exact hfall
  · rw [if_neg hfirst]
    refine ldN_reads rd_header ?_
    cases Y with
    | nil =>
      rw [CList.firstN_nil, if_pos rfl]
      refine rightmost_cps ?_
      rw [h1, List.append_nil]
      rw [List.append_nil] at h1 hs hfall hfirst
      obtain ⟨X', b, rfl⟩ := mem_last (X := X) (by rintro rfl; exact hfirst rfl)
      rw [lastN_snoc]
      refine nodeLtVal_cps (X := X') (Y := []) (e := b) h1 hv' ?_
      cases hp : E.cmp g.cmp (E.kov g.kov b.val) (E.kov g.kov v)
      · simp only [Bool.false_eq_true, ↓reduceIte]
        exact hfall
      · simp only [↓reduceIte]
        refine rightmost_cps ?_
        rw [h1, lastN_snoc]
        obtain ⟨c, l, k, hk, hb, hX⟩ := hole_last h1
        refine Triple.post (insertHoleF_spec hH (A := X' ++ [b]) (B := []) hk (by simp [hX]) (by simp [hb]) h2 h3 ⟨rfl, hw.asymm hp⟩ hv0 hv' rfl) fun r => ?_
        xintro e ⟨hr, he⟩
        xexists ((X' ++ [b]) ++ e :: [])
        cancel
        rw [hr]
        have hfin := unique_ins (A := X' ++ [b]) (B := []) (e := e) hw (by simpa using hs) he ?_ (by simp)
        · rw [List.append_nil] at hfin; exact hfin
        intro A' b' hA
        have := (List.append_inj' hA rfl).2
        simp only [List.cons.injEq, and_true] at this
        rw [← this]; exact hp
    | cons x Y =>
      have hxh : (x.node : Nat) ≠ h := (hf.ne x (by simp)).1
      rw [CList.firstN_cons, if_neg hxh]
      obtain ⟨X', b, rfl⟩ := mem_last (X := X) (by rintro rfl; exact hfirst rfl)
      refine decrementF_cps hH h1 h2 (by simp) ?_
      rw [lastN_snoc]
      have h1b : t.toList = X' ++ b :: x :: Y := by rw [h1]; simp
      refine nodeLtVal_cps (X := X') (Y := x :: Y) (e := b) h1b hv' ?_
      cases hp : E.cmp g.cmp (E.kov g.kov b.val) (E.kov g.kov v)
      · simp only [Bool.false_eq_true, ↓reduceIte, pure_bind]
        exact hfall
      · simp only [↓reduceIte]
        refine valLtNode_cps (X := X' ++ [b]) (Y := Y) (e := x) h1 hv' ?_
        cases hp2 : E.cmp g.cmp (E.kov g.kov v) (E.kov g.kov x.val)
        · simp only [Bool.false_eq_true, ↓reduceIte]
          exact hfall
        · simp only [↓reduceIte]
          have hfin : ∀ e : Elem V, e.val = v → UniqueIns E g v (X' ++ [b] ++ x :: Y) e.node ((X' ++ [b]) ++ e :: x :: Y) := by
            intro e he
            refine unique_ins (A := X' ++ [b]) (B := x :: Y) hw hs he ?_ (by rintro y B' h; cases h; exact hp2)
            intro A' b' hA
            have := (List.append_inj' hA rfl).2
            simp only [List.cons.injEq, and_true] at this
            rw [← this]; exact hp
          unfold hasRight
          have hb0 : b.node ≠ 0 := (hf.ne b (by simp)).2.1
          rw [if_neg hb0, bind_assoc]
          rcases hole_mid h1b with ⟨c, l, k, hk, hX, hY⟩ | ⟨c, l, r, k, c', r', k', hk, hr, hk', hX, hY⟩
          · refine ldN_reads (rd_right hk) ?_
            simp only [rootA_leaf, bne_self_eq_false, pure_bind, Bool.not_false, ↓reduceIte]
            refine Triple.post (insertHoleF_spec hH (k := .R c l b :: k) (A := X' ++ [b]) (B := x :: Y) hk (by simp [hX]) (by simp [hY]) h2 h3 ⟨rfl, hw.asymm hp⟩ hv0 hv' rfl) fun r => ?_
            xintro e ⟨hr, he⟩
            xexists ((X' ++ [b]) ++ e :: x :: Y)
            cancel
            rw [hr]
            exact hfin e he
          · refine ldN_reads (rd_right hk) ?_
            obtain ⟨y, hy, hye⟩ := rootA_mem hr
            have hy0 : rootA r ≠ 0 := by
              rw [hye]
              have := tree_mid hk
              rw [h1] at this
              exact (hf.ne y (by rw [this]; simp [hy])).2.1
            have : (rootA r != 0) = true := by simpa using hy0
            rw [pure_bind, this]
            simp only [Bool.not_true, Bool.false_eq_true, ↓reduceIte]
            refine Triple.post (insertHoleF_spec hH (k := .L c' x r' :: k') (A := X' ++ [b]) (B := x :: Y) hk' (by simp [hX]) (by simp [hY]) h2 h3 (Or.inr hp2) hv0 hv' rfl) fun r => ?_
            xintro e ⟨hr, he⟩
            xexists ((X' ++ [b]) ++ e :: x :: Y)
            cancel
            rw [hr]
            exact hfin e he
theorem insertUnique_spec {X Y : List (Elem V)} {value : Loc} {v : V} (hw : StrictWeak (klt E g)) (hs : KSorted E g (X ++ Y)) (hv0 : value.1 ≠ 0) (hv : Reads (isTree a h g (X ++ Y) ∗ F) value v) :
    Triple True (isTree a h g (X ++ Y) ∗ F) (insertUnique E a (firstN Y h) value)
      (fun r => ∃ₛ es', ⌜UniqueIns E g v (X ++ Y) r es'⌝ ∗ isTree a h g es' ∗ F) :=
  Triple.le (insertUniqueF_le E (2 * Nat.log2 ((X ++ Y).length + 1) + 1) a (firstN Y h) value) (insertUniqueF_spec (Nat.le_refl _) hw hs hv0 hv)


/-- is the place between `X` and `Y` one where the key of `v` fits? -/
def fits (E : Env V) (g : Cfg) (v : V) (X Y : List (Elem V)) : Bool :=
  X.all (fun x => !klt E g (E.kov g.kov v) (ek E g x)) && Y.all (fun y => !klt E g (ek E g y) (E.kov g.kov v))

/-- the effect of a hinted insertion: right before the hint if the key fits there, else behind everything not greater -/
def hintIns (E : Env V) (g : Cfg) (v : V) (X Y : List (Elem V)) (e : Elem V) : List (Elem V) :=
  if fits E g v X Y then X ++ e :: Y else insAfter E g v (X ++ Y) e

theorem fits_eq (hw : StrictWeak (klt E g)) {X Y : List (Elem V)} {v : V} (hs : KSorted E g (X ++ Y)) :
    fits E g v X Y = true ↔ (∀ A' b, X = A' ++ [b] → klt E g (E.kov g.kov v) (ek E g b) = false) ∧ (∀ x B', Y = x :: B' → klt E g (ek E g x) (E.kov g.kov v) = false) := by
  have hs' := KSorted.iff.1 hs
  rw [List.pairwise_append] at hs'
  simp only [fits, Bool.and_eq_true, List.all_eq_true, Bool.not_eq_true']
  constructor
  · rintro ⟨h1, h2⟩
    exact ⟨fun A' b h => h1 b (by simp [h]), fun x B' h => h2 x (by simp [h])⟩
  · rintro ⟨h1, h2⟩
    refine ⟨fun x hx => ?_, fun x hx => ?_⟩
    · obtain ⟨A', b, rfl⟩ := mem_last (X := X) (by rintro rfl; simp at hx)
      have hb := h1 A' b rfl
      rcases List.mem_append.1 hx with hx | hx
      · exact hw.negtrans hb ((List.pairwise_append.1 hs'.1).2.2 x hx b (by simp))
      · rw [List.mem_singleton.1 hx]; exact hb
    · cases Y with
      | nil => simp at hx
      | cons y B' =>
        have hy := h2 y B' rfl
        rcases List.mem_cons.1 hx with rfl | hx
        · exact hy
        · exact hw.negtrans ((List.pairwise_cons.1 hs'.2.1).1 x hx) hy

theorem insertEqualF_spec {N : Nat} {X Y : List (Elem V)} {value : Loc} {v : V} (hN : 2 * Nat.log2 ((X ++ Y).length + 1) + 1 ≤ N) (hw : StrictWeak (klt E g)) (hs : KSorted E g (X ++ Y)) (hv0 : value.1 ≠ 0) (hv : Reads (isTree a h g (X ++ Y) ∗ F) value v) :
    Triple True (isTree a h g (X ++ Y) ∗ F) (insertEqualF E N a (firstN Y h) value)
      (fun r => ∃ₛ e, ⌜r = e.node ∧ e.val = v⌝ ∗ isTree a h g (hintIns E g v X Y e) ∗ F) := by
  refine with_treeN hN fun t h1 h2 h3 hH => ?_
  have hv' := reads_shape h1 h2 h3 hv
  have hfall : fits E g v X Y = false → Triple True (isShape a h g t ∗ F) (insertEqualValueF E N a value) (fun r => ∃ₛ e, ⌜r = e.node ∧ e.val = v⌝ ∗ isTree a h g (hintIns E g v X Y e) ∗ F) := by
    intro hfit
    simp only [hintIns, hfit, Bool.false_eq_true, ↓reduceIte]
    exact Triple.pre (sep_mono (shape_tree h1 h2 h3) (ent_refl F)) (insertEqualValueF_spec hN hw hs hv0 hv)
  have hfit := fits_eq (v := v) hw hs
  refine with_facts fun hf => ?_
  unfold insertEqualF
  step
  · simpa using hf.a0
  step
  · simpa using hv0
  refine leftmost_cps ?_
  rw [h1]
  rw [h1] at hf
  by_cases hfirst : firstN Y h = firstN (X ++ Y) h
  · rw [if_pos hfirst]
    refine ldN_reads rd_count ?_
    rw [h1]
    have hX : X = [] := by
      cases X with
      | nil => rfl
      | cons x X => exact absurd hfirst.symm (pos_ne (X := []) (W := X) (Y := Y) (by simpa using hf))
    subst hX
    cases Y with
    | nil =>
      simp only [List.append_nil, List.length_nil, Nat.lt_irrefl, ↓reduceIte, pure_bind, Bool.not_true, Bool.false_eq_true]
      have : ∀ e, hintIns E g v [] [] e = insAfter E g v [] e := by intro e; simp [hintIns, insAfter]
      simp only [this]
      exact Triple.pre (sep_mono (shape_tree h1 h2 h3) (ent_refl F)) (insertEqualValueF_spec hN hw hs hv0 hv)
    | cons x Y =>
      simp only [List.nil_append] at *
      rw [if_pos (by simp)]
      refine nodeLtVal_cps (X := []) (Y := Y) (e := x) h1 hv' ?_
      cases hp : E.cmp g.cmp (E.kov g.kov x.val) (E.kov g.kov v)
      · simp only [Bool.not_false, ↓reduceIte, CList.firstN_cons]
        have hx0 : x.node ≠ 0 := (hf.ne x (by simp)).2.1
        obtain ⟨c, r, k, hk, hb, hY⟩ := hole_first h1
        refine Triple.post (insertHoleF_spec hH (A := []) (B := x :: Y) hk (by simp [hb]) (by simp [hY]) h2 h3 (Or.inl hx0) hv0 hv' rfl) fun r => ?_
        simp only [hintIns, hfit.2 ⟨by simp, by rintro y B' h; cases h; exact hp⟩, ↓reduceIte]
        exact ent_refl _
      · simp only [Bool.not_true, Bool.false_eq_true, ↓reduceIte]
        apply hfall
        cases hb : fits E g v [] (x :: Y)
        · rfl
        · have := (hfit.1 hb).2 x Y rfl
          simp only [klt, ek] at this
          rw [this] at hp; cases hp
  · rw [if_neg hfirst]
    refine ldN_reads rd_header ?_
    cases Y with
    | nil =>
      rw [CList.firstN_nil, if_pos rfl]
      refine rightmost_cps ?_
      rw [h1, List.append_nil]
      obtain ⟨X', b, rfl⟩ := mem_last (X := X) (by rintro rfl; exact hfirst rfl)
      rw [List.append_nil] at h1
      rw [lastN_snoc]
      refine valLtNode_cps (X := X') (Y := []) (e := b) h1 hv' ?_
      cases hp : E.cmp g.cmp (E.kov g.kov v) (E.kov g.kov b.val)
      · simp only [Bool.not_false, ↓reduceIte]
        refine rightmost_cps ?_
        rw [h1, lastN_snoc]
        obtain ⟨c, l, k, hk, hb, hX⟩ := hole_last h1
        refine Triple.post (insertHoleF_spec hH (A := X' ++ [b]) (B := []) hk (by simp [hX]) (by simp [hb]) h2 h3 ⟨rfl, hp⟩ hv0 hv' rfl) fun r => ?_
        have hft := hfit.2 ⟨?_, by simp⟩
        · simp only [hintIns, hft, ↓reduceIte]
          exact ent_refl _
        intro A' b' hA
        have := (List.append_inj' hA rfl).2
        simp only [List.cons.injEq, and_true] at this
        rw [← this]; exact hp
      · simp only [Bool.not_true, Bool.false_eq_true, ↓reduceIte]
        apply hfall
        cases hb : fits E g v (X' ++ [b]) []
        · rfl
        · have := (hfit.1 hb).1 X' b rfl
          simp only [klt, ek] at this
          rw [this] at hp; cases hp
    | cons x Y =>
      have hxh : (x.node : Nat) ≠ h := (hf.ne x (by simp)).1
      rw [CList.firstN_cons, if_neg hxh]
      obtain ⟨X', b, rfl⟩ := mem_last (X := X) (by rintro rfl; exact hfirst rfl)
      refine decrementF_cps hH h1 h2 (by simp) ?_
      rw [lastN_snoc]
      have h1b : t.toList = X' ++ b :: x :: Y := by rw [h1]; simp
      refine valLtNode_cps (X := X') (Y := x :: Y) (e := b) h1b hv' ?_
      cases hp : E.cmp g.cmp (E.kov g.kov v) (E.kov g.kov b.val)
      · simp only [Bool.not_false, ↓reduceIte]
        refine nodeLtVal_cps (X := X' ++ [b]) (Y := Y) (e := x) h1 hv' ?_
        cases hp2 : E.cmp g.cmp (E.kov g.kov x.val) (E.kov g.kov v)
        · simp only [Bool.not_false, ↓reduceIte]
          have hft : fits E g v (X' ++ [b]) (x :: Y) = true := by
            refine hfit.2 ⟨?_, by rintro y B' h; cases h; exact hp2⟩
            intro A' b' hA
            have := (List.append_inj' hA rfl).2
            simp only [List.cons.injEq, and_true] at this
            rw [← this]; exact hp
          simp only [hintIns, hft, ↓reduceIte]
          unfold hasRight
          have hb0 : b.node ≠ 0 := (hf.ne b (by simp)).2.1
          have hx0 : x.node ≠ 0 := (hf.ne x (by simp)).2.1
          rw [if_neg hb0, bind_assoc]
          rcases hole_mid h1b with ⟨c, l, k, hk, hX, hY⟩ | ⟨c, l, r, k, c', r', k', hk, hr, hk', hX, hY⟩
          · refine ldN_reads (rd_right hk) ?_
            simp only [rootA_leaf, bne_self_eq_false, pure_bind, Bool.not_false, ↓reduceIte]
            exact insertHoleF_spec hH (k := .R c l b :: k) (A := X' ++ [b]) (B := x :: Y) hk (by simp [hX]) (by simp [hY]) h2 h3 ⟨rfl, hp⟩ hv0 hv' rfl
          · refine ldN_reads (rd_right hk) ?_
            obtain ⟨y, hy, hye⟩ := rootA_mem hr
            have hy0 : rootA r ≠ 0 := by
              rw [hye]
              have := tree_mid hk
              rw [h1] at this
              exact (hf.ne y (by rw [this]; simp [hy])).2.1
            have : (rootA r != 0) = true := by simpa using hy0
            rw [pure_bind, this]
            simp only [Bool.not_true, Bool.false_eq_true, ↓reduceIte]
            exact insertHoleF_spec hH (k := .L c' x r' :: k') (A := X' ++ [b]) (B := x :: Y) hk' (by simp [hX]) (by simp [hY]) h2 h3 (Or.inl hx0) hv0 hv' rfl
        · simp only [Bool.not_true, Bool.false_eq_true, ↓reduceIte]
          apply hfall
          cases hb : fits E g v (X' ++ [b]) (x :: Y)
          · rfl
          · have := (hfit.1 hb).2 x Y rfl
            simp only [klt, ek] at this
            rw [this] at hp2; cases hp2
      · simp only [Bool.not_true, Bool.false_eq_true, ↓reduceIte, pure_bind]
        apply hfall
        cases hb : fits E g v (X' ++ [b]) (x :: Y)
        · rfl
        · have := (hfit.1 hb).1 X' b rfl
          simp only [klt, ek] at this
          rw [this] at hp; cases hp
theorem insertEqual_spec {X Y : List (Elem V)} {value : Loc} {v : V} (hw : StrictWeak (klt E g)) (hs : KSorted E g (X ++ Y)) (hv0 : value.1 ≠ 0) (hv : Reads (isTree a h g (X ++ Y) ∗ F) value v) :
    Triple True (isTree a h g (X ++ Y) ∗ F) (insertEqual E a (firstN Y h) value)
      (fun r => ∃ₛ e, ⌜r = e.node ∧ e.val = v⌝ ∗ isTree a h g (hintIns E g v X Y e) ∗ F) :=
  Triple.le (insertEqualF_le E (2 * Nat.log2 ((X ++ Y).length + 1) + 1) a (firstN Y h) value) (insertEqualF_spec (Nat.le_refl _) hw hs hv0 hv)

/-! ### erasing -/

theorem destroyNode_spec {e : Elem V} {c p l r : Nat} (ha : a ≠ 0) (he : e.node ≠ 0) : Triple nf (nd e c p l r) (destroyNode a e.node) (fun _ => emp) := by
  unfold destroyNode
  simp only [nd, elm]
  step
  · simpa using ha
  step
  · simpa using he
  steps
  call (freeV1 (a := e.box))
  intro _
  rw [emp_sep]
  rw [← bind_pure (free _)]
  call (free5 (a := e.node))
  intro _
  apply Triple.ret
  cancel

theorem eraseF_spec {N : Nat} {X Y : List (Elem V)} {e : Elem V} (hN : 2 * Nat.log2 ((X ++ e :: Y).length + 1) + 1 ≤ N) :
    Triple nf (isTree a h g (X ++ e :: Y) ∗ F) (eraseF N a e.node) (fun r => ⌜r = firstN Y h⌝ ∗ isTree a h g (X ++ Y) ∗ F) := by
  refine with_treeN hN fun t h1 h2 h3 hH => ?_
  refine with_facts fun hf => ?_
  rw [h1] at hf
  unfold eraseF
  step
  · simpa using hf.a0
  refine incrementF_cps hH h1 ?_
  refine Triple.bind (rebalanceEraseF_spec h1 h2 hH) fun en => ?_
  refine Triple.ex_left fun t' => ?_
  refine Triple.ex_left fun c => ?_
  refine Triple.ex_left fun p => ?_
  refine Triple.ex_left fun l => ?_
  refine Triple.ex_left fun r => ?_
  apply Triple.pure_left
  rintro ⟨rfl, hg, hl⟩
  call (destroyNode_spec (a := a) (e := e) (c := c) (p := p) (l := l) (r := r) hf.a0 (hf.ne e (by simp)).2.1)
  intro _
  simp only [hdr]
  steps
  apply Triple.ret
  refine ent_pure_right rfl ?_
  refine ent_trans (Q := isShape a h g t' ∗ F) ?_ (sep_mono (shape_tree hl hg h3) (ent_refl F))
  simp only [isShape, hdr, hl, Nat.add_sub_cancel]
  cancel
theorem erase_spec {X Y : List (Elem V)} {e : Elem V} :
    Triple nf (isTree a h g (X ++ e :: Y) ∗ F) (erase a e.node) (fun r => ⌜r = firstN Y h⌝ ∗ isTree a h g (X ++ Y) ∗ F) :=
  Triple.le (eraseF_le  (2 * Nat.log2 ((X ++ e :: Y).length + 1) + 1) a e.node) (eraseF_spec (Nat.le_refl _) )

theorem eraseSub_spec {p : Nat} {t : T (Elem V)} (ha : a ≠ 0) : Triple nf (tr p t) (eraseSub a (rootA t)) (fun _ => emp) := by
  induction t generalizing p with
  | leaf =>
    rw [eraseSub, rootA_leaf, if_neg (by simp)]
    apply Triple.ret
    rw [tr_leaf]; exact ent_refl _
  | node c l e r ihl ihr =>
    rw [tr_node]
    refine Triple.fact (p := e.node ≠ 0) (fun m hm => ?_) fun hx => ?_
    · exact pts_ne_zero (l := (e.node, 1)) (v := .num c.code) (R := _) ((show _ ⊢ₛ _ by simp only [nd]; cancel) _ hm)
    rw [eraseSub, rootA_node, if_pos hx]
    simp only [nd]
    step
    call (ihr (p := e.node))
    intro _
    step
    refine Triple.pre (P' := nd e c.code p (rootA l) (rootA r) ∗ tr e.node l) (by simp only [nd]; cancel) ?_
    call (destroyNode_spec (a := a) (e := e) (c := c.code) (p := p) (l := rootA l) (r := rootA r) ha hx)
    intro _
    rw [emp_sep]
    exact ihl

theorem clear_spec : Triple nf (isTree a h g es ∗ F) (clear a) (fun _ => isTree a h g [] ∗ F) := by
  refine with_tree fun t h1 h2 h3 => ?_
  refine with_facts fun hf => ?_
  unfold clear
  rw [if_neg hf.a0]
  refine root_cps ?_
  simp only [isShape, hdr]
  call (eraseSub_spec (a := a) (p := h) (t := t) hf.a0)
  intro _
  steps
  apply Triple.ret
  refine ent_trans (Q := isShape a h g leaf ∗ F) ?_ (sep_mono (shape_tree rfl ⟨rfl, 0, rfl⟩ h3) (ent_refl F))
  simp only [isShape, hdr, toList_leaf, List.length_nil, CList.firstN_nil, CList.lastN_nil, rootA_leaf, tr_leaf]
  cancel

theorem eraseRangeLoop_spec {X W Y : List (Elem V)} : Triple nf (isTree a h g (X ++ W ++ Y) ∗ F) (eraseRangeLoop a (firstN (W ++ Y) h) (firstN Y h)) (fun _ => isTree a h g (X ++ Y) ∗ F) := by
  induction W generalizing X with
  | nil =>
    rw [eraseRangeLoop, List.nil_append, if_neg (by simp)]
    apply Triple.ret
    rw [List.append_nil]
    exact ent_refl _
  | cons e W ih =>
    refine with_tree fun t h1 h2 h3 => ?_
    refine with_facts fun hf => ?_
    rw [h1] at hf
    rw [eraseRangeLoop, List.cons_append, CList.firstN_cons, if_pos (pos_ne hf)]
    refine Triple.pre (sep_mono (shape_tree h1 h2 h3) (ent_refl F)) ?_
    have h4 : X ++ e :: W ++ Y = X ++ e :: (W ++ Y) := by simp
    rw [h4]
    refine Triple.bind erase_spec fun r => ?_
    apply Triple.pure_left
    rintro rfl
    rw [← List.append_assoc]
    exact ih

theorem eraseRange_spec {X W Y : List (Elem V)} : Triple nf (isTree a h g (X ++ W ++ Y) ∗ F) (eraseRange a (firstN (W ++ Y) h) (firstN Y h)) (fun _ => isTree a h g (X ++ Y) ∗ F) := by
  refine with_tree fun t h1 h2 h3 => ?_
  refine with_facts fun hf => ?_
  unfold eraseRange
  rw [if_neg hf.a0]
  refine leftmost_cps ?_
  refine ldN_reads rd_header ?_
  refine Triple.pre (sep_mono (shape_tree h1 h2 h3) (ent_refl F)) ?_
  rw [h1] at hf ⊢
  split
  · rename_i hc
    have hY : Y = [] := by
      cases Y with
      | nil => rfl
      | cons y Y => exact absurd hc.2 (hf.ne y (by simp)).1
    subst hY
    have hX : X = [] := by
      cases X with
      | nil => rfl
      | cons x X => exact absurd hc.1.symm (pos_ne (X := []) (W := X) (Y := W ++ []) (by simpa using hf))
    subst hX
    exact clear_spec
  · exact eraseRangeLoop_spec

end CC.Tree
