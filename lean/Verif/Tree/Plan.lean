import Verif.Tree.Edit
import Verif.Tree.Whole
/-!
# Insertion into a tree in two parts

The insertion functions of c_tree.c look for the place of the new element and then call `__insert`, always as the last thing they do.  Here they are split there
(`insertX_plan`: the split program is equal to the function), so that what happens before `__insert` can be used whatever the allocator does.
-/
namespace CC.Tree
open CC CC.Tac T
open CC.CList (Elem nodes vals firstN lastN firstN_append)
variable {V β : Type} {nf : Prop} {E : Env V} {a h : Nat} {g : Cfg} {es : List (Elem V)} {F : HProp V}

theorem bite {α β : Type} {c : Prop} [Decidable c] {x y : M V α} {f : α → M V β} : ((if c then x else y) >>= f) = if c then x >>= f else y >>= f := by
  split <;> rfl

section
variable (E)
/-- the rest of an insertion function: return the iterator found, or insert at the place found -/
def finish (a : Addr) (value : Loc) : Addr ⊕ (Addr × Addr) → M V Addr
  | .inl z => pure z
  | .inr (hint, p) => insertIter E a hint p value

/-- the part of `insertUniqueValue` that runs before `__insert`: the place found -/
def planUniqueValue (a : Addr) (value : Loc) : M V (Addr ⊕ (Addr × Addr)) := do
  cassert (a != 0)
  cassert (value.1 != 0)
  let y ← header a
  let x ← root a
  let (y, comp) ← descend E a x y true value
  let z ← mkIter a y
  let lm ← leftmost a
  if comp ∧ z = lm then pure (.inr (0, y)) else do
  let z ← (if comp then iterDecrement z else pure z)
  let b ← nodeLtVal E a z value
  if b then pure (.inr (0, y)) else pure (.inl z)

/-- `planUniqueValue` with the number of iterations of its loops limited by `N` -/
def planUniqueValueF (N : Nat) (a : Addr) (value : Loc) : M V (Addr ⊕ (Addr × Addr)) := do
  cassert (a != 0)
  cassert (value.1 != 0)
  let y ← header a
  let x ← root a
  let (y, comp) ← descendF E N a x y true value
  let z ← mkIter a y
  let lm ← leftmost a
  if comp ∧ z = lm then pure (.inr (0, y)) else do
  let z ← (if comp then iterDecrementF N z else pure z)
  let b ← nodeLtVal E a z value
  if b then pure (.inr (0, y)) else pure (.inl z)
theorem planUniqueValueF_le (N : Nat) (a : Addr) (value : Loc) : Le (planUniqueValueF E N a value : M V (Addr ⊕ (Addr × Addr))) (planUniqueValue E a value) := by
  unfold planUniqueValueF planUniqueValue
  repeat' le_step
macro_rules | `(tactic| le_fn) => `(tactic| exact planUniqueValueF_le _ _ _ _)
theorem insertUniqueValue_plan (a : Addr) (value : Loc) : (insertUniqueValue E a value : M V Addr) = planUniqueValue E a value >>= finish E a value := by
  unfold insertUniqueValue planUniqueValue
  simp only [bind_assoc, pure_bind, bite, finish, finish]

/-- the part of `insertUnique` that runs before `__insert`: the place found -/
def planUnique (a hint : Addr) (value : Loc) : M V (Addr ⊕ (Addr × Addr)) := do
  cassert (a != 0)
  cassert (value.1 != 0)
  let lm ← leftmost a
  if hint = lm then do
    let n ← count_ a
    let b ← (if 0 < n then valLtNode E a value hint else pure false)
    if b then pure (.inr (hint, hint)) else planUniqueValue E a value
  else do
  let h ← header a
  if hint = h then do
    let rm ← rightmost a
    let b ← nodeLtVal E a rm value
    if b then do
      let rm ← rightmost a
      pure (.inr (0, rm))
    else planUniqueValue E a value
  else do
    let before ← iterDecrement hint
    let b ← nodeLtVal E a before value
    let b ← (if b then valLtNode E a value hint else pure false)
    if b then do
      let hr ← hasRight before
      if !hr then pure (.inr (0, before)) else pure (.inr (hint, hint))
    else planUniqueValue E a value

/-- `planUnique` with the number of iterations of its loops limited by `N` -/
def planUniqueF (N : Nat) (a hint : Addr) (value : Loc) : M V (Addr ⊕ (Addr × Addr)) := do
  cassert (a != 0)
  cassert (value.1 != 0)
  let lm ← leftmost a
  if hint = lm then do
    let n ← count_ a
    let b ← (if 0 < n then valLtNode E a value hint else pure false)
    if b then pure (.inr (hint, hint)) else planUniqueValueF E N a value
  else do
  let h ← header a
  if hint = h then do
    let rm ← rightmost a
    let b ← nodeLtVal E a rm value
    if b then do
      let rm ← rightmost a
      pure (.inr (0, rm))
    else planUniqueValueF E N a value
  else do
    let before ← iterDecrementF N hint
    let b ← nodeLtVal E a before value
    let b ← (if b then valLtNode E a value hint else pure false)
    if b then do
      let hr ← hasRight before
      if !hr then pure (.inr (0, before)) else pure (.inr (hint, hint))
    else planUniqueValueF E N a value
theorem planUniqueF_le (N : Nat) (a hint : Addr) (value : Loc) : Le (planUniqueF E N a hint value : M V (Addr ⊕ (Addr × Addr))) (planUnique E a hint value) := by
  unfold planUniqueF planUnique
  repeat' le_step
macro_rules | `(tactic| le_fn) => `(tactic| exact planUniqueF_le _ _ _ _ _)
theorem insertUnique_plan (a hint : Addr) (value : Loc) : (insertUnique E a hint value : M V Addr) = planUnique E a hint value >>= finish E a value := by
  unfold insertUnique planUnique
  simp only [bind_assoc, pure_bind, bite, finish, insertUniqueValue_plan]

/-- the part of `insertEqualValue` that runs before `__insert`: the place found -/
def planEqualValue (a : Addr) (value : Loc) : M V (Addr ⊕ (Addr × Addr)) := do
  cassert (a != 0)
  cassert (value.1 != 0)
  let y ← header a
  let x ← root a
  let y ← descendEq E a x y value
  pure (.inr (0, y))

/-- `planEqualValue` with the number of iterations of its loops limited by `N` -/
def planEqualValueF (N : Nat) (a : Addr) (value : Loc) : M V (Addr ⊕ (Addr × Addr)) := do
  cassert (a != 0)
  cassert (value.1 != 0)
  let y ← header a
  let x ← root a
  let y ← descendEqF E N a x y value
  pure (.inr (0, y))
theorem planEqualValueF_le (N : Nat) (a : Addr) (value : Loc) : Le (planEqualValueF E N a value : M V (Addr ⊕ (Addr × Addr))) (planEqualValue E a value) := by
  unfold planEqualValueF planEqualValue
  repeat' le_step
macro_rules | `(tactic| le_fn) => `(tactic| exact planEqualValueF_le _ _ _ _)
theorem insertEqualValue_plan (a : Addr) (value : Loc) : (insertEqualValue E a value : M V Addr) = planEqualValue E a value >>= finish E a value := by
  unfold insertEqualValue planEqualValue
  simp only [bind_assoc, pure_bind, bite, finish, finish]

/-- the part of `insertEqual` that runs before `__insert`: the place found -/
def planEqual (a hint : Addr) (value : Loc) : M V (Addr ⊕ (Addr × Addr)) := do
  cassert (a != 0)
  cassert (value.1 != 0)
  let lm ← leftmost a
  if hint = lm then do
    let n ← count_ a
    let b ← (if 0 < n then nodeLtVal E a hint value else pure true)
    if !b then pure (.inr (hint, hint)) else planEqualValue E a value
  else do
  let h ← header a
  if hint = h then do
    let rm ← rightmost a
    let b ← valLtNode E a value rm
    if !b then do
      let rm ← rightmost a
      pure (.inr (0, rm))
    else planEqualValue E a value
  else do
    let before ← iterDecrement hint
    let b ← valLtNode E a value before
    let b ← (if !b then nodeLtVal E a hint value else pure true)
    if !b then do
      let hr ← hasRight before
      if !hr then pure (.inr (0, before)) else pure (.inr (hint, hint))
    else planEqualValue E a value

/-- `planEqual` with the number of iterations of its loops limited by `N` -/
def planEqualF (N : Nat) (a hint : Addr) (value : Loc) : M V (Addr ⊕ (Addr × Addr)) := do
  cassert (a != 0)
  cassert (value.1 != 0)
  let lm ← leftmost a
  if hint = lm then do
    let n ← count_ a
    let b ← (if 0 < n then nodeLtVal E a hint value else pure true)
    if !b then pure (.inr (hint, hint)) else planEqualValueF E N a value
  else do
  let h ← header a
  if hint = h then do
    let rm ← rightmost a
    let b ← valLtNode E a value rm
    if !b then do
      let rm ← rightmost a
      pure (.inr (0, rm))
    else planEqualValueF E N a value
  else do
    let before ← iterDecrementF N hint
    let b ← valLtNode E a value before
    let b ← (if !b then nodeLtVal E a hint value else pure true)
    if !b then do
      let hr ← hasRight before
      if !hr then pure (.inr (0, before)) else pure (.inr (hint, hint))
    else planEqualValueF E N a value
theorem planEqualF_le (N : Nat) (a hint : Addr) (value : Loc) : Le (planEqualF E N a hint value : M V (Addr ⊕ (Addr × Addr))) (planEqual E a hint value) := by
  unfold planEqualF planEqual
  repeat' le_step
macro_rules | `(tactic| le_fn) => `(tactic| exact planEqualF_le _ _ _ _ _)
theorem insertEqual_plan (a hint : Addr) (value : Loc) : (insertEqual E a hint value : M V Addr) = planEqual E a hint value >>= finish E a value := by
  unfold insertEqual planEqual
  simp only [bind_assoc, pure_bind, bite, finish, insertEqualValue_plan]

end

/-- what a plan tells: an equivalent element (only if `U`), or a place `k` in the tree with the property `G` -/
def planPost (E : Env V) (a h : Nat) (g : Cfg) (v : V) (es : List (Elem V)) (U : Prop) (G : Ctx (Elem V) → Prop) (F : HProp V) (o : Addr ⊕ (Addr × Addr)) : HProp V :=
  hex fun t : T (Elem V) => ⌜t.toList = es ∧ t.Good ∧ g.vt ≠ 0 ∧ ((U ∧ ∃ x ∈ es, keq E g (E.kov g.kov v) x = true ∧ o = .inl x.node) ∨
    ∃ hint k, t = plug leaf k ∧ o = .inr (hint, upA h k) ∧ Side E g hint v k ∧ G k)⌝ ∗ isShape a h g t ∗ F

def uniquePost (E : Env V) (a h : Nat) (g : Cfg) (v : V) (es : List (Elem V)) (F : HProp V) : Addr ⊕ (Addr × Addr) → HProp V :=
  planPost E a h g v es True (fun k => ∀ e : Elem V, e.val = v → UniqueIns E g v es e.node (before k ++ e :: after k)) F

def equalPost (E : Env V) (a h : Nat) (g : Cfg) (v : V) (es : List (Elem V)) (G : Elem V → List (Elem V)) (F : HProp V) : Addr ⊕ (Addr × Addr) → HProp V :=
  planPost E a h g v es False (fun k => ∀ e : Elem V, e.val = v → before k ++ e :: after k = G e) F

section
variable {t : T (Elem V)} {k : Ctx (Elem V)} {hint p : Nat} {v : V} {A B : List (Elem V)} {G : Elem V → List (Elem V)}

theorem uniquePost_place (h1 : t.toList = es) (h2 : t.Good) (h3 : g.vt ≠ 0) (hk : t = plug leaf k) (hs : Side E g hint v k)
    (hu : ∀ e : Elem V, e.val = v → UniqueIns E g v es e.node (before k ++ e :: after k)) :
    (isShape a h g t ∗ F) ⊢ₛ uniquePost E a h g v es F (.inr (hint, upA h k)) := by
  apply ent_ex_right t
  exact ent_pure_right ⟨h1, h2, h3, Or.inr ⟨hint, k, hk, rfl, hs, hu⟩⟩ (ent_refl _)
theorem uniquePost_hole (h1 : t.toList = es) (h2 : t.Good) (h3 : g.vt ≠ 0) (hk : t = plug leaf k) (hs : Side E g hint v k) (hA : A = before k) (hB : B = after k)
    (hp : p = upA h k) (hu : ∀ e : Elem V, e.val = v → UniqueIns E g v es e.node (A ++ e :: B)) :
    (isShape a h g t ∗ F) ⊢ₛ uniquePost E a h g v es F (.inr (hint, p)) := by
  subst hA hB hp
  exact uniquePost_place h1 h2 h3 hk hs hu
theorem uniquePost_found {x : Elem V} (h1 : t.toList = es) (h2 : t.Good) (h3 : g.vt ≠ 0) (hx : x ∈ es) (hq : keq E g (E.kov g.kov v) x = true) :
    (isShape a h g t ∗ F) ⊢ₛ uniquePost E a h g v es F (.inl x.node) := by
  apply ent_ex_right t
  exact ent_pure_right ⟨h1, h2, h3, Or.inl ⟨trivial, x, hx, hq, rfl⟩⟩ (ent_refl _)
theorem equalPost_place (h1 : t.toList = es) (h2 : t.Good) (h3 : g.vt ≠ 0) (hk : t = plug leaf k) (hs : Side E g hint v k)
    (hu : ∀ e : Elem V, e.val = v → before k ++ e :: after k = G e) :
    (isShape a h g t ∗ F) ⊢ₛ equalPost E a h g v es G F (.inr (hint, upA h k)) := by
  apply ent_ex_right t
  exact ent_pure_right ⟨h1, h2, h3, Or.inr ⟨hint, k, hk, rfl, hs, hu⟩⟩ (ent_refl _)
theorem equalPost_hole (h1 : t.toList = es) (h2 : t.Good) (h3 : g.vt ≠ 0) (hk : t = plug leaf k) (hs : Side E g hint v k) (hA : A = before k) (hB : B = after k)
    (hp : p = upA h k) (hu : ∀ e : Elem V, e.val = v → A ++ e :: B = G e) :
    (isShape a h g t ∗ F) ⊢ₛ equalPost E a h g v es G F (.inr (hint, p)) := by
  subst hA hB hp
  exact equalPost_place h1 h2 h3 hk hs hu
end

theorem planUniqueValueF_spec {N : Nat} {value : Loc} {v : V} (hN : 2 * Nat.log2 (es.length + 1) + 1 ≤ N) (hw : StrictWeak (klt E g)) (hs : KSorted E g es) (hv0 : value.1 ≠ 0) (hv : Reads (isTree a h g es ∗ F) value v) :
    Triple nf (isTree a h g es ∗ F) (planUniqueValueF E N a value)
      (fun r => uniquePost E a h g v es F r) := by
  refine with_treeN hN fun t h1 h2 h3 hH => ?_
  have hv' := reads_shape h1 h2 h3 hv
  refine with_facts fun hf => ?_
  unfold planUniqueValueF
  step
  · simpa using hf.a0
  step
  · simpa using hv0
  refine ldN_reads rd_header ?_
  refine root_cps ?_
  subst h1
  refine descendF_cps (k := []) hH rfl hv' (hs.upper hw) Cut.nil trivial fun k hk hc hsd => ?_
  dsimp only
  have hcf := hc.filter
  have hl := toList_plug (t := leaf) (k := k)
  rw [← hk, toList_leaf, List.append_nil] at hl
  rw [← hk] at hcf
  simp only [Bool.not_not] at hcf
  have hins : ∀ e, before k ++ e :: after k = insAfter E g v t.toList e := fun e => by simp only [insAfter, hcf.1, hcf.2]
  have hafter : ∀ x ∈ after k, keq E g (E.kov g.kov v) x = false := fun x hx => by
    have := hc.after x hx
    simp only [Bool.not_eq_false'] at this
    simp [keq, equivB, this]
  have hdone : (∀ x ∈ before k, keq E g (E.kov g.kov v) x = false) → Triple nf (isShape a h g t ∗ F) ((pure (.inr (0, upA h k))))
      (fun r => uniquePost E a h g v t.toList F r) := by
    intro hb
    apply Triple.ret
    refine uniquePost_place (k := k) (hint := 0) rfl h2 h3 hk hsd fun e he => ?_
    refine Or.inr ⟨fun x hx => ?_, e, he, rfl, hins e⟩
    rw [hl] at hx
    exact (List.mem_append.1 hx).elim (hb x) (hafter x)
  have h0 : upA h k ≠ 0 := by
    cases k with
    | nil => exact hf.h0
    | cons f k =>
      refine (hf.ne f.elem ?_).2.1
      rw [hl]
      cases f <;> simp
  refine mkIter_cps h3 h0 ?_
  refine leftmost_cps ?_
  -- the element before the place
  have hlast : ∀ X' z, before k = X' ++ [z] → Triple nf (isShape a h g t ∗ F)
      (do let b ← nodeLtVal E a z.node value
          if b then (pure (.inr (0, upA h k))) else pure (.inl z.node))
      (fun r => uniquePost E a h g v t.toList F r) := by
    intro X' z hb
    have hzm : t.toList = X' ++ z :: after k := by rw [hl, hb]; simp
    refine nodeLtVal_cps (e := z) hzm hv' ?_
    cases hz : E.cmp g.cmp (E.kov g.kov z.val) (E.kov g.kov v)
    · simp only [Bool.false_eq_true, ↓reduceIte]
      apply Triple.ret
      have hz2 := hc.before z (by simp [hb])
      simp only [Bool.not_eq_true'] at hz2
      refine uniquePost_found rfl h2 h3 (by rw [hzm]; simp) ?_
      simp only [keq, equivB, hz2, Bool.not_false, Bool.true_and, Bool.not_eq_true']
      exact hz
    · simp only [↓reduceIte]
      refine hdone fun x hx => ?_
      have hxz : klt E g (ek E g x) (E.kov g.kov v) = true := by
        rw [hb] at hx
        rcases List.mem_append.1 hx with hx | hx
        · have hs' := KSorted.iff.1 hs
          rw [hzm, List.pairwise_append] at hs'
          have h4 := hs'.2.2 x hx z (by simp)
          cases h5 : klt E g (ek E g x) (E.kov g.kov v)
          · have := hw.negtrans h4 h5
            simp only [klt, ek] at this
            rw [this] at hz; cases hz
          · rfl
        · rw [List.mem_singleton.1 hx]; exact hz
      simp [keq, equivB, hxz]
  match k, hk, hc, hsd, hl, hdone, hlast with
  | [], hk, hc, hsd, hl, hdone, hlast =>
    have hcond : (endsL (V := V) [] = true) ∧ upA (V := V) h [] = firstN t.toList h := by rw [hl]; exact ⟨rfl, rfl⟩
    rw [if_pos hcond]
    exact hdone (by simp)
  | .L c e r :: k, hk, hc, hsd, hl, hdone, hlast =>
    simp only [endsL, upA_cons, Frame.elem_L, true_and, ↓reduceIte] at hdone hlast ⊢
    simp only [before_L, after_L, List.cons_append] at hl hdone hlast
    have hn := hf.nodup
    rw [hl] at hn
    have hi := firstN_eq_iff (h := h) hn
    by_cases hb : before k = []
    · have : e.node = firstN t.toList h := by rw [hl]; exact hi.2 hb
      rw [if_pos this]
      exact hdone (by rw [hb]; simp)
    · have : ¬ e.node = firstN t.toList h := by rw [hl]; exact mt hi.1 hb
      rw [if_neg this]
      refine decrementF_cps hH hl h2 hb ?_
      obtain ⟨X', z, hX'⟩ := mem_last hb
      have := hlast X' z hX'
      rw [hX', lastN_snoc]
      exact this
  | .R c l e :: k, hk, hc, hsd, hl, hdone, hlast =>
    have := hlast (before k ++ l.toList) e (by simp)
    simp only [endsL, upA_cons, Frame.elem_R, Bool.false_eq_true, false_and, ↓reduceIte, pure_bind] at this ⊢
    exact this

/-- with any position `X | Y` as a hint the effect is that of the insertion without a hint -/
theorem planUniqueF_spec {N : Nat} {X Y : List (Elem V)} {value : Loc} {v : V} (hN : 2 * Nat.log2 ((X ++ Y).length + 1) + 1 ≤ N) (hw : StrictWeak (klt E g)) (hs : KSorted E g (X ++ Y)) (hv0 : value.1 ≠ 0) (hv : Reads (isTree a h g (X ++ Y) ∗ F) value v) :
    Triple nf (isTree a h g (X ++ Y) ∗ F) (planUniqueF E N a (firstN Y h) value)
      (fun r => uniquePost E a h g v (X ++ Y) F r) := by
  refine with_treeN hN fun t h1 h2 h3 hH => ?_
  have hv' := reads_shape h1 h2 h3 hv
  have hfall : Triple nf (isShape a h g t ∗ F) (planUniqueValueF E N a value) (fun r => uniquePost E a h g v (X ++ Y) F r) :=
    Triple.pre (sep_mono (shape_tree h1 h2 h3) (ent_refl F)) (planUniqueValueF_spec hN hw hs hv0 hv)
  refine with_facts fun hf => ?_
  unfold planUniqueF
  step
  · simpa using hf.a0
  step
  · simpa using hv0
  refine leftmost_cps ?_
  rw [h1]
  rw [h1] at hf
  by_cases hfirst : firstN Y h = firstN (X ++ Y) h
  · rw [if_pos hfirst]
    refine ldN_reads rd_count ?_
    rw [h1]
    by_cases hn : 0 < (X ++ Y).length
    · -- a non-empty tree: the hint is its first element
      have hX : X = [] := by
        cases X with
        | nil => rfl
        | cons x X => exact absurd hfirst.symm (pos_ne (X := []) (W := X) (Y := Y) (by simpa using hf))
      subst hX
      cases Y with
      | nil => simp at hn
      | cons x Y =>
        simp only [List.nil_append] at *
        rw [if_pos hn]
        refine valLtNode_cps (X := []) (Y := Y) (e := x) h1 hv' ?_
        cases hp : E.cmp g.cmp (E.kov g.kov v) (E.kov g.kov x.val)
        · simp only [Bool.false_eq_true, ↓reduceIte]
          exact hfall
        · simp only [↓reduceIte, CList.firstN_cons]
          obtain ⟨c, r, k, hk, hb, hY⟩ := hole_first h1
          apply Triple.ret
          refine uniquePost_hole (by simp [h1]) h2 h3 hk (Or.inr hp) (A := []) (B := x :: Y) (by simp [hb]) (by simp [hY]) rfl fun e he => ?_
          exact unique_ins (A := []) (B := x :: Y) hw hs he (by simp) (by rintro y B' h; cases h; exact hp)
    · simp only [hn, ↓reduceIte, pure_bind, Bool.false_eq_true]
      exact hfall
  · rw [if_neg hfirst]
    refine ldN_reads rd_header ?_
    cases Y with
    | nil =>
      rw [CList.firstN_nil, if_pos rfl]
      refine rightmost_cps ?_
      rw [h1, List.append_nil]
      rw [List.append_nil] at h1 hs hfall hfirst
      obtain ⟨X', b, rfl⟩ := mem_last (X := X) (by rintro rfl; exact hfirst rfl)
      rw [lastN_snoc]
      refine nodeLtVal_cps (X := X') (Y := []) (e := b) h1 hv' ?_
      cases hp : E.cmp g.cmp (E.kov g.kov b.val) (E.kov g.kov v)
      · simp only [Bool.false_eq_true, ↓reduceIte]
        exact hfall
      · simp only [↓reduceIte]
        refine rightmost_cps ?_
        rw [h1, lastN_snoc]
        obtain ⟨c, l, k, hk, hb, hX⟩ := hole_last h1
        apply Triple.ret
        refine uniquePost_hole (by simp [h1]) h2 h3 hk ⟨rfl, hw.asymm hp⟩ (A := X' ++ [b]) (B := []) (by simp [hX]) (by simp [hb]) rfl fun e he => ?_
        have hfin := unique_ins (A := X' ++ [b]) (B := []) (e := e) hw (by simpa using hs) he ?_ (by simp)
        · rw [List.append_nil] at hfin; exact hfin
        intro A' b' hA
        have := (List.append_inj' hA rfl).2
        simp only [List.cons.injEq, and_true] at this
        rw [← this]; exact hp
    | cons x Y =>
      have hxh : (x.node : Nat) ≠ h := (hf.ne x (by simp)).1
      rw [CList.firstN_cons, if_neg hxh]
      obtain ⟨X', b, rfl⟩ := mem_last (X := X) (by rintro rfl; exact hfirst rfl)
      refine decrementF_cps hH h1 h2 (by simp) ?_
      rw [lastN_snoc]
      have h1b : t.toList = X' ++ b :: x :: Y := by rw [h1]; simp
      refine nodeLtVal_cps (X := X') (Y := x :: Y) (e := b) h1b hv' ?_
      cases hp : E.cmp g.cmp (E.kov g.kov b.val) (E.kov g.kov v)
      · simp only [Bool.false_eq_true, ↓reduceIte, pure_bind]
        exact hfall
      · simp only [↓reduceIte]
        refine valLtNode_cps (X := X' ++ [b]) (Y := Y) (e := x) h1 hv' ?_
        cases hp2 : E.cmp g.cmp (E.kov g.kov v) (E.kov g.kov x.val)
        · simp only [Bool.false_eq_true, ↓reduceIte]
          exact hfall
        · simp only [↓reduceIte]
          have hfin : ∀ e : Elem V, e.val = v → UniqueIns E g v (X' ++ [b] ++ x :: Y) e.node ((X' ++ [b]) ++ e :: x :: Y) := by
            intro e he
            refine unique_ins (A := X' ++ [b]) (B := x :: Y) hw hs he ?_ (by rintro y B' h; cases h; exact hp2)
            intro A' b' hA
            have := (List.append_inj' hA rfl).2
            simp only [List.cons.injEq, and_true] at this
            rw [← this]; exact hp
          unfold hasRight
          have hb0 : b.node ≠ 0 := (hf.ne b (by simp)).2.1
          rw [if_neg hb0, bind_assoc]
          rcases hole_mid h1b with ⟨c, l, k, hk, hX, hY⟩ | ⟨c, l, r, k, c', r', k', hk, hr, hk', hX, hY⟩
          · refine ldN_reads (rd_right hk) ?_
            simp only [rootA_leaf, bne_self_eq_false, pure_bind, Bool.not_false, ↓reduceIte]
            apply Triple.ret
            refine uniquePost_hole (k := .R c l b :: k) (by simp [h1]) h2 h3 hk ⟨rfl, hw.asymm hp⟩ (A := X' ++ [b]) (B := x :: Y) (by simp [hX]) (by simp [hY]) rfl fun e he => ?_
            exact hfin e he
          · refine ldN_reads (rd_right hk) ?_
            obtain ⟨y, hy, hye⟩ := rootA_mem hr
            have hy0 : rootA r ≠ 0 := by
              rw [hye]
              have := tree_mid hk
              rw [h1] at this
              exact (hf.ne y (by rw [this]; simp [hy])).2.1
            have : (rootA r != 0) = true := by simpa using hy0
            rw [pure_bind, this]
            simp only [Bool.not_true, Bool.false_eq_true, ↓reduceIte]
            apply Triple.ret
            refine uniquePost_hole (k := .L c' x r' :: k') (by simp [h1]) h2 h3 hk' (Or.inr hp2) (A := X' ++ [b]) (B := x :: Y) (by simp [hX]) (by simp [hY]) rfl fun e he => ?_
            exact hfin e he

theorem planEqualValueF_spec {N : Nat} {value : Loc} {v : V} (hN : 2 * Nat.log2 (es.length + 1) + 1 ≤ N) (hw : StrictWeak (klt E g)) (hs : KSorted E g es) (hv0 : value.1 ≠ 0) (hv : Reads (isTree a h g es ∗ F) value v) :
    Triple nf (isTree a h g es ∗ F) (planEqualValueF E N a value)
      (fun r => equalPost E a h g v es (insAfter E g v es) F r) := by
  refine with_treeN hN fun t h1 h2 h3 hH => ?_
  have hv' := reads_shape h1 h2 h3 hv
  refine with_facts fun hf => ?_
  unfold planEqualValueF
  step
  · simpa using hf.a0
  step
  · simpa using hv0
  refine ldN_reads rd_header ?_
  refine root_cps ?_
  subst h1
  refine descendEqF_cps (k := []) hH rfl hv' (hs.upper hw) Cut.nil trivial fun k hk hc hsd => ?_
  have hcf := hc.filter
  rw [← hk] at hcf
  simp only [Bool.not_not] at hcf
  apply Triple.ret
  refine equalPost_place (k := k) (hint := 0) rfl h2 h3 hk hsd fun e _ => ?_
  simp only [insAfter, hcf.1, hcf.2]

theorem planEqualF_spec {N : Nat} {X Y : List (Elem V)} {value : Loc} {v : V} (hN : 2 * Nat.log2 ((X ++ Y).length + 1) + 1 ≤ N) (hw : StrictWeak (klt E g)) (hs : KSorted E g (X ++ Y)) (hv0 : value.1 ≠ 0) (hv : Reads (isTree a h g (X ++ Y) ∗ F) value v) :
    Triple nf (isTree a h g (X ++ Y) ∗ F) (planEqualF E N a (firstN Y h) value)
      (fun r => equalPost E a h g v (X ++ Y) (hintIns E g v X Y) F r) := by
  refine with_treeN hN fun t h1 h2 h3 hH => ?_
  have hv' := reads_shape h1 h2 h3 hv
  have hfall : fits E g v X Y = false → Triple nf (isShape a h g t ∗ F) (planEqualValueF E N a value) (fun r => equalPost E a h g v (X ++ Y) (hintIns E g v X Y) F r) := by
    intro hfit
    have : hintIns E g v X Y = insAfter E g v (X ++ Y) := by funext e; simp only [hintIns, hfit, Bool.false_eq_true, ↓reduceIte]
    rw [this]
    exact Triple.pre (sep_mono (shape_tree h1 h2 h3) (ent_refl F)) (planEqualValueF_spec hN hw hs hv0 hv)
  have hfit := fits_eq (v := v) hw hs
  refine with_facts fun hf => ?_
  unfold planEqualF
  step
  · simpa using hf.a0
  step
  · simpa using hv0
  refine leftmost_cps ?_
  rw [h1]
  rw [h1] at hf
  by_cases hfirst : firstN Y h = firstN (X ++ Y) h
  · rw [if_pos hfirst]
    refine ldN_reads rd_count ?_
    rw [h1]
    have hX : X = [] := by
      cases X with
      | nil => rfl
      | cons x X => exact absurd hfirst.symm (pos_ne (X := []) (W := X) (Y := Y) (by simpa using hf))
    subst hX
    cases Y with
    | nil =>
      simp only [List.append_nil, List.length_nil, Nat.lt_irrefl, ↓reduceIte, pure_bind, Bool.not_true, Bool.false_eq_true]
      have : hintIns E g v [] [] = insAfter E g v [] := by funext e; simp [hintIns, insAfter]
      rw [this]
      exact Triple.pre (sep_mono (shape_tree h1 h2 h3) (ent_refl F)) (planEqualValueF_spec hN hw hs hv0 hv)
    | cons x Y =>
      simp only [List.nil_append] at *
      rw [if_pos (by simp)]
      refine nodeLtVal_cps (X := []) (Y := Y) (e := x) h1 hv' ?_
      cases hp : E.cmp g.cmp (E.kov g.kov x.val) (E.kov g.kov v)
      · simp only [Bool.not_false, ↓reduceIte, CList.firstN_cons]
        have hx0 : x.node ≠ 0 := (hf.ne x (by simp)).2.1
        obtain ⟨c, r, k, hk, hb, hY⟩ := hole_first h1
        apply Triple.ret
        refine equalPost_hole (by simp [h1]) h2 h3 hk (Or.inl hx0) (A := []) (B := x :: Y) (by simp [hb]) (by simp [hY]) rfl fun e _ => ?_
        simp only [hintIns, hfit.2 ⟨by simp, by rintro y B' h; cases h; exact hp⟩, ↓reduceIte]
      · simp only [Bool.not_true, Bool.false_eq_true, ↓reduceIte]
        apply hfall
        cases hb : fits E g v [] (x :: Y)
        · rfl
        · have := (hfit.1 hb).2 x Y rfl
          simp only [klt, ek] at this
          rw [this] at hp; cases hp
  · rw [if_neg hfirst]
    refine ldN_reads rd_header ?_
    cases Y with
    | nil =>
      rw [CList.firstN_nil, if_pos rfl]
      refine rightmost_cps ?_
      rw [h1, List.append_nil]
      obtain ⟨X', b, rfl⟩ := mem_last (X := X) (by rintro rfl; exact hfirst rfl)
      rw [List.append_nil] at h1 hfall
      rw [lastN_snoc]
      refine valLtNode_cps (X := X') (Y := []) (e := b) h1 hv' ?_
      cases hp : E.cmp g.cmp (E.kov g.kov v) (E.kov g.kov b.val)
      · simp only [Bool.not_false, ↓reduceIte]
        refine rightmost_cps ?_
        rw [h1, lastN_snoc]
        obtain ⟨c, l, k, hk, hb, hX⟩ := hole_last h1
        apply Triple.ret
        refine equalPost_hole (by simp [h1]) h2 h3 hk ⟨rfl, hp⟩ (A := X' ++ [b]) (B := []) (by simp [hX]) (by simp [hb]) rfl fun e _ => ?_
        have hft := hfit.2 ⟨?_, by simp⟩
        · simp only [hintIns, hft, ↓reduceIte]
        intro A' b' hA
        have := (List.append_inj' hA rfl).2
        simp only [List.cons.injEq, and_true] at this
        rw [← this]; exact hp
      · simp only [Bool.not_true, Bool.false_eq_true, ↓reduceIte]
        apply hfall
        cases hb : fits E g v (X' ++ [b]) []
        · rfl
        · have := (hfit.1 hb).1 X' b rfl
          simp only [klt, ek] at this
          rw [this] at hp; cases hp
    | cons x Y =>
      have hxh : (x.node : Nat) ≠ h := (hf.ne x (by simp)).1
      rw [CList.firstN_cons, if_neg hxh]
      obtain ⟨X', b, rfl⟩ := mem_last (X := X) (by rintro rfl; exact hfirst rfl)
      refine decrementF_cps hH h1 h2 (by simp) ?_
      rw [lastN_snoc]
      have h1b : t.toList = X' ++ b :: x :: Y := by rw [h1]; simp
      refine valLtNode_cps (X := X') (Y := x :: Y) (e := b) h1b hv' ?_
      cases hp : E.cmp g.cmp (E.kov g.kov v) (E.kov g.kov b.val)
      · simp only [Bool.not_false, ↓reduceIte]
        refine nodeLtVal_cps (X := X' ++ [b]) (Y := Y) (e := x) h1 hv' ?_
        cases hp2 : E.cmp g.cmp (E.kov g.kov x.val) (E.kov g.kov v)
        · simp only [Bool.not_false, ↓reduceIte]
          have hft : fits E g v (X' ++ [b]) (x :: Y) = true := by
            refine hfit.2 ⟨?_, by rintro y B' h; cases h; exact hp2⟩
            intro A' b' hA
            have := (List.append_inj' hA rfl).2
            simp only [List.cons.injEq, and_true] at this
            rw [← this]; exact hp
          have hins : ∀ e, (X' ++ [b]) ++ e :: x :: Y = hintIns E g v (X' ++ [b]) (x :: Y) e := fun e => by simp only [hintIns, hft, ↓reduceIte]
          unfold hasRight
          have hb0 : b.node ≠ 0 := (hf.ne b (by simp)).2.1
          have hx0 : x.node ≠ 0 := (hf.ne x (by simp)).2.1
          rw [if_neg hb0, bind_assoc]
          rcases hole_mid h1b with ⟨c, l, k, hk, hX, hY⟩ | ⟨c, l, r, k, c', r', k', hk, hr, hk', hX, hY⟩
          · refine ldN_reads (rd_right hk) ?_
            simp only [rootA_leaf, bne_self_eq_false, pure_bind, Bool.not_false, ↓reduceIte]
            exact Triple.ret (equalPost_hole (k := .R c l b :: k) (by simp [h1]) h2 h3 hk ⟨rfl, hp⟩ (A := X' ++ [b]) (B := x :: Y) (by simp [hX]) (by simp [hY]) rfl fun e _ => hins e)
          · refine ldN_reads (rd_right hk) ?_
            obtain ⟨y, hy, hye⟩ := rootA_mem hr
            have hy0 : rootA r ≠ 0 := by
              rw [hye]
              have := tree_mid hk
              rw [h1] at this
              exact (hf.ne y (by rw [this]; simp [hy])).2.1
            have : (rootA r != 0) = true := by simpa using hy0
            rw [pure_bind, this]
            simp only [Bool.not_true, Bool.false_eq_true, ↓reduceIte]
            exact Triple.ret (equalPost_hole (k := .L c' x r' :: k') (by simp [h1]) h2 h3 hk' (Or.inl hx0) (A := X' ++ [b]) (B := x :: Y) (by simp [hX]) (by simp [hY]) rfl fun e _ => hins e)
        · simp only [Bool.not_true, Bool.false_eq_true, ↓reduceIte]
          apply hfall
          cases hb : fits E g v (X' ++ [b]) (x :: Y)
          · rfl
          · have := (hfit.1 hb).2 x Y rfl
            simp only [klt, ek] at this
            rw [this] at hp2; cases hp2
      · simp only [Bool.not_true, Bool.false_eq_true, ↓reduceIte, pure_bind]
        apply hfall
        cases hb : fits E g v (X' ++ [b]) (x :: Y)
        · rfl
        · have := (hfit.1 hb).1 X' b rfl
          simp only [klt, ek] at this
          rw [this] at hp; cases hp

end CC.Tree
