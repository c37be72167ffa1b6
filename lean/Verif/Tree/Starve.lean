import Verif.Core.Safe
import Verif.Tree.Plan
import Verif.Tree.History
/-!
# Ordered containers when memory runs out
-/
namespace CC.Tree
open CC CC.Tac T
open CC.CList (Elem nodes vals firstN lastN firstN_append)
variable {V β : Type} {nf : Prop} {E : Env V} {a h : Nat} {g : Cfg} {es X Y : List (Elem V)} {F R : HProp V} {ρ : Loc → V} {value : Loc} {v : V} {k : Ctx (Elem V)} {hint : Nat}

theorem up_ne (hf : Facts a h (plug leaf k : T (Elem V)).toList) : upA h k ≠ 0 := by
  cases k with
  | nil => exact hf.h0
  | cons f k =>
    have hl := toList_plug (t := leaf) (k := f :: k)
    refine (hf.ne f.elem ?_).2.1
    rw [hl]
    cases f <;> simp

theorem mkIter_zero {t : T (Elem V)} {s : Mem V} (hvt : g.vt ≠ 0) (hm : (isShape a h g t ∗ F) s.cells) : (mkIter a 0 : M V Addr) s = some (.error .abort) := by
  unfold mkIter vtype
  rw [run_ldN (rd_vtype s.cells hm)]
  have h1 : (cassert (g.vt != 0) : M V Unit) = pure () := by unfold cassert; rw [if_pos (by simpa using hvt)]
  rw [h1, pure_bind]
  rfl

/-- the last step of every insertion, whatever the allocator does -/
theorem insertIter_safe (hg : (plug leaf k).Good) (hvt : g.vt ≠ 0) (hs : Side E g hint v k) (hv0 : value.1 ≠ 0)
    (hv : Reads (isShape a h g (plug leaf k) ∗ F) value v) :
    Safe (isShape a h g (plug leaf k) ∗ F) (insertIter E a hint (upA h k) value)
      (fun r => ∃ₛ e, ⌜r = e.node ∧ e.val = v⌝ ∗ isTree a h g (before k ++ e :: after k) ∗ F) := by
  intro s hm
  have h1 := Triple.le (insertF_le E (k.length + 1) a hint (upA h k) value)
    (insertF_spec (nf := ∀ t, s.orc t ≠ 0) hg (Nat.le_refl _) hvt hs hv0 hv)
  obtain ⟨r, s', h2, h3, h4⟩ := h1.run (F := emp) (s := s) id (by rw [sep_emp]; exact hm)
  rw [sep_emp] at h4
  obtain ⟨t', h4⟩ := h4
  rw [hpure_sep_apply] at h4
  obtain ⟨⟨hg', ⟨e, rfl, he, h0, hl⟩ | ⟨hn, rfl, rfl⟩⟩, h5⟩ := h4
  · have h6 : Triple False (isShape a h g t' ∗ F) (mkIter a e.node >>= pure) (fun r => ⌜r = e.node⌝ ∗ isShape a h g t' ∗ F) :=
      mkIter_cps hvt h0 (Triple.ret (ent_pure_right rfl (ent_refl _)))
    rw [bind_pure] at h6
    obtain ⟨r, s'', h7, h8, h9⟩ := h6.run (F := emp) (s := s') (fun h => h.elim) (by rw [sep_emp]; exact h5)
    rw [sep_emp, hpure_sep_apply] at h9
    refine Or.inr ⟨r, s'', ?_, h8.trans h3, e, ?_⟩
    · unfold insertIter
      rw [bind_ok h2]
      exact h7
    · exact hpure_sep_apply.2 ⟨⟨h9.1, he⟩, sep_mono (shape_tree hl hg' hvt) (ent_refl F) _ h9.2⟩
  · refine Or.inl ⟨?_, by rw [Classical.not_forall] at hn; obtain ⟨t, ht⟩ := hn; exact ⟨t, Classical.not_not.1 ht⟩⟩
    unfold insertIter
    rw [bind_ok h2]
    exact mkIter_zero hvt h5

/-- an insertion whose place is known, whatever the allocator does -/
theorem finish_safe {U : Prop} {G : Ctx (Elem V) → Prop} {o : Addr ⊕ (Addr × Addr)} (hv0 : value.1 ≠ 0) (hv : Reads (isTree a h g es ∗ F) value v) :
    Safe (planPost E a h g v es U G F o) (finish E a value o) (fun r => ∃ₛ es', ⌜(U ∧ es' = es ∧ ∃ x ∈ es, keq E g (E.kov g.kov v) x = true ∧ r = x.node) ∨
      (∃ k e, G k ∧ e.val = v ∧ r = e.node ∧ es' = before k ++ e :: after k)⌝ ∗ isTree a h g es' ∗ F) := by
  unfold planPost
  refine Safe.ex fun t => Safe.pure_left ?_
  rintro ⟨h1, h2, h3, ⟨hU, x, hx, hq, rfl⟩ | ⟨hint, k, rfl, rfl, hs, hG⟩⟩
  · apply Safe.of_triple
    apply Triple.ret
    apply ent_ex_right es
    exact ent_pure_right (Or.inl ⟨hU, rfl, x, hx, hq, rfl⟩) (sep_mono (shape_tree h1 h2 h3) (ent_refl F))
  · refine Safe.post (insertIter_safe h2 h3 hs hv0 (reads_shape h1 h2 h3 hv)) fun r => ?_
    refine ent_ex_left fun e => ent_pure_left fun he => ?_
    apply ent_ex_right (before k ++ e :: after k)
    exact ent_pure_right (Or.inr ⟨k, e, hG, he.2, he.1, rfl⟩) (ent_refl _)

theorem insertUniqueValue_safe (hw : StrictWeak (klt E g)) (hs : KSorted E g es) (hv0 : value.1 ≠ 0) (hv : Reads (isTree a h g es ∗ F) value v) :
    Safe (isTree a h g es ∗ F) (insertUniqueValue E a value) (fun r => ∃ₛ es', ⌜UniqueIns E g v es r es'⌝ ∗ isTree a h g es' ∗ F) := by
  rw [insertUniqueValue_plan]
  refine Safe.step (Triple.le (planUniqueValueF_le E (2 * Nat.log2 (es.length + 1) + 1) a value) (planUniqueValueF_spec (Nat.le_refl _) hw hs hv0 hv)) fun o => ?_
  refine Safe.post (finish_safe hv0 hv) fun r => ?_
  refine ent_ex_left fun es' => ent_pure_left fun he => ?_
  apply ent_ex_right es'
  refine ent_pure_right ?_ (ent_refl _)
  rcases he with ⟨_, h1, h2⟩ | ⟨k, e, hG, he, rfl, rfl⟩
  · exact Or.inl ⟨h1, h2⟩
  · exact hG e he

theorem insertUnique_safe (hw : StrictWeak (klt E g)) (hs : KSorted E g (X ++ Y)) (hv0 : value.1 ≠ 0) (hv : Reads (isTree a h g (X ++ Y) ∗ F) value v) :
    Safe (isTree a h g (X ++ Y) ∗ F) (insertUnique E a (firstN Y h) value) (fun r => ∃ₛ es', ⌜UniqueIns E g v (X ++ Y) r es'⌝ ∗ isTree a h g es' ∗ F) := by
  rw [insertUnique_plan]
  refine Safe.step (Triple.le (planUniqueF_le E (2 * Nat.log2 ((X ++ Y).length + 1) + 1) a (firstN Y h) value) (planUniqueF_spec (Nat.le_refl _) hw hs hv0 hv)) fun o => ?_
  refine Safe.post (finish_safe hv0 hv) fun r => ?_
  refine ent_ex_left fun es' => ent_pure_left fun he => ?_
  apply ent_ex_right es'
  refine ent_pure_right ?_ (ent_refl _)
  rcases he with ⟨_, h1, h2⟩ | ⟨k, e, hG, he, rfl, rfl⟩
  · exact Or.inl ⟨h1, h2⟩
  · exact hG e he

theorem insertEqualValue_safe (hw : StrictWeak (klt E g)) (hs : KSorted E g es) (hv0 : value.1 ≠ 0) (hv : Reads (isTree a h g es ∗ F) value v) :
    Safe (isTree a h g es ∗ F) (insertEqualValue E a value) (fun r => ∃ₛ e, ⌜r = e.node ∧ e.val = v⌝ ∗ isTree a h g (insAfter E g v es e) ∗ F) := by
  rw [insertEqualValue_plan]
  refine Safe.step (Triple.le (planEqualValueF_le E (2 * Nat.log2 (es.length + 1) + 1) a value) (planEqualValueF_spec (Nat.le_refl _) hw hs hv0 hv)) fun o => ?_
  refine Safe.post (finish_safe hv0 hv) fun r => ?_
  refine ent_ex_left fun es' => ent_pure_left fun he => ?_
  rcases he with ⟨h, _⟩ | ⟨k, e, hG, he, rfl, rfl⟩
  · exact h.elim
  · apply ent_ex_right e
    rw [hG e he]
    exact ent_pure_right ⟨rfl, he⟩ (ent_refl _)

theorem insertEqual_safe (hw : StrictWeak (klt E g)) (hs : KSorted E g (X ++ Y)) (hv0 : value.1 ≠ 0) (hv : Reads (isTree a h g (X ++ Y) ∗ F) value v) :
    Safe (isTree a h g (X ++ Y) ∗ F) (insertEqual E a (firstN Y h) value) (fun r => ∃ₛ e, ⌜r = e.node ∧ e.val = v⌝ ∗ isTree a h g (hintIns E g v X Y e) ∗ F) := by
  rw [insertEqual_plan]
  refine Safe.step (Triple.le (planEqualF_le E (2 * Nat.log2 ((X ++ Y).length + 1) + 1) a (firstN Y h) value) (planEqualF_spec (Nat.le_refl _) hw hs hv0 hv)) fun o => ?_
  refine Safe.post (finish_safe hv0 hv) fun r => ?_
  refine ent_ex_left fun es' => ent_pure_left fun he => ?_
  rcases he with ⟨h, _⟩ | ⟨k, e, hG, he, rfl, rfl⟩
  · exact h.elim
  · apply ent_ex_right e
    rw [hG e he]
    exact ent_pure_right ⟨rfl, he⟩ (ent_refl _)

/-! ### no memory at all -/

theorem createNode_exhausted {P : HProp V} {vt : Nat} (ha : a ≠ 0) (h1 : ReadsN P (a, 2) vt) (hvt : vt ≠ 0) :
    Exhausted P (createNode a value) (fun r => ⌜r = 0⌝ ∗ P) := by
  have ca : (cassert (a != 0) : M V Unit) = pure () := by unfold cassert; rw [if_pos (by simpa using ha)]
  have cv : (cassert (vt != 0) : M V Unit) = pure () := by unfold cassert; rw [if_pos (by simpa using hvt)]
  unfold createNode
  rw [ca, pure_bind]
  refine Exhausted.bind (Q := fun r => ⌜r = vt⌝ ∗ P) (.of_triple ?_) fun r => Exhausted.pure_left ?_
  · rw [← bind_pure (vtype a)]
    exact ldN_reads h1 (Triple.ret (ent_pure_right rfl (ent_refl _)))
  rintro rfl
  rw [cv, pure_bind]
  refine Exhausted.bind Exhausted.malloc fun r => Exhausted.pure_left ?_
  rintro rfl
  rw [if_pos rfl]
  exact .of_triple (Triple.ret (ent_pure_right rfl (ent_refl _)))

theorem insertIter_gives (hvt : g.vt ≠ 0) (hv0 : value.1 ≠ 0) : Gives (isShape a h g (plug leaf k) ∗ F) (insertIter E a hint (upA h k) value) := by
  intro s ho hm
  have hf := shape_facts hm
  have ca : (cassert (a != 0) : M V Unit) = pure () := by unfold cassert; rw [if_pos (by simpa using hf.a0)]
  have cp : (cassert (upA h k != 0) : M V Unit) = pure () := by unfold cassert; rw [if_pos (by simpa using up_ne hf)]
  have cv : (cassert (value.1 != 0) : M V Unit) = pure () := by unfold cassert; rw [if_pos (by simpa using hv0)]
  obtain ⟨r, s', h1, h2, h3⟩ := createNode_exhausted (value := value) hf.a0 (rd_vtype (F := F)) hvt s ho hm
  rw [hpure_sep_apply] at h3
  obtain ⟨rfl, h3⟩ := h3
  unfold insertIter insert
  simp only [ca, cp, cv, pure_bind, bind_assoc]
  rw [bind_ok h1, if_pos rfl, pure_bind]
  exact mkIter_zero hvt h3

theorem finish_gives {U : Prop} {G : Ctx (Elem V) → Prop} {o : Addr ⊕ (Addr × Addr)} (hv0 : value.1 ≠ 0) (hU : U → ∀ x ∈ es, keq E g (E.kov g.kov v) x = false) :
    Gives (planPost E a h g v es U G F o) (finish E a value o) := by
  unfold planPost
  refine Gives.ex fun t => Gives.pure_left ?_
  rintro ⟨h1, h2, h3, ⟨hU', x, hx, hq, rfl⟩ | ⟨hint, k, rfl, rfl, hs, hG⟩⟩
  · rw [hU hU' x hx] at hq; cases hq
  · exact insertIter_gives h3 hv0

theorem insertUniqueValue_gives (hw : StrictWeak (klt E g)) (hs : KSorted E g es) (hv0 : value.1 ≠ 0) (hv : Reads (isTree a h g es ∗ F) value v)
    (hn : ∀ x ∈ es, keq E g (E.kov g.kov v) x = false) : Gives (isTree a h g es ∗ F) (insertUniqueValue E a value) := by
  rw [insertUniqueValue_plan]
  refine Gives.step (Triple.le (planUniqueValueF_le E (2 * Nat.log2 (es.length + 1) + 1) a value) (planUniqueValueF_spec (Nat.le_refl _) hw hs hv0 hv)) fun o => ?_
  exact finish_gives hv0 fun _ => hn
theorem insertUnique_gives (hw : StrictWeak (klt E g)) (hs : KSorted E g (X ++ Y)) (hv0 : value.1 ≠ 0) (hv : Reads (isTree a h g (X ++ Y) ∗ F) value v)
    (hn : ∀ x ∈ X ++ Y, keq E g (E.kov g.kov v) x = false) : Gives (isTree a h g (X ++ Y) ∗ F) (insertUnique E a (firstN Y h) value) := by
  rw [insertUnique_plan]
  refine Gives.step (Triple.le (planUniqueF_le E (2 * Nat.log2 ((X ++ Y).length + 1) + 1) a (firstN Y h) value) (planUniqueF_spec (Nat.le_refl _) hw hs hv0 hv)) fun o => ?_
  exact finish_gives hv0 fun _ => hn
theorem insertEqualValue_gives (hw : StrictWeak (klt E g)) (hs : KSorted E g es) (hv0 : value.1 ≠ 0) (hv : Reads (isTree a h g es ∗ F) value v) :
    Gives (isTree a h g es ∗ F) (insertEqualValue E a value) := by
  rw [insertEqualValue_plan]
  refine Gives.step (Triple.le (planEqualValueF_le E (2 * Nat.log2 (es.length + 1) + 1) a value) (planEqualValueF_spec (Nat.le_refl _) hw hs hv0 hv)) fun o => ?_
  exact finish_gives hv0 fun h => h.elim
theorem insertEqual_gives (hw : StrictWeak (klt E g)) (hs : KSorted E g (X ++ Y)) (hv0 : value.1 ≠ 0) (hv : Reads (isTree a h g (X ++ Y) ∗ F) value v) :
    Gives (isTree a h g (X ++ Y) ∗ F) (insertEqual E a (firstN Y h) value) := by
  rw [insertEqual_plan]
  refine Gives.step (Triple.le (planEqualF_le E (2 * Nat.log2 ((X ++ Y).length + 1) + 1) a (firstN Y h) value) (planEqualF_spec (Nat.le_refl _) hw hs hv0 hv)) fun o => ?_
  exact finish_gives hv0 fun h => h.elim

/-- a key that is there: nothing is allocated -/
theorem insertUniqueValue_present {x : Elem V} (hw : StrictWeak (klt E g)) (hs : KSorted E g es) (hv0 : value.1 ≠ 0) (hv : Reads (isTree a h g es ∗ F) value v)
    (hx : x ∈ es) (hq : keq E g (E.kov g.kov v) x = true) :
    Triple nf (isTree a h g es ∗ F) (insertUniqueValue E a value) (fun r => ⌜∃ y ∈ es, keq E g (E.kov g.kov v) y = true ∧ r = y.node⌝ ∗ isTree a h g es ∗ F) := by
  rw [insertUniqueValue_plan]
  refine Triple.bind (Triple.le (planUniqueValueF_le E (2 * Nat.log2 (es.length + 1) + 1) a value) (planUniqueValueF_spec (Nat.le_refl _) hw hs hv0 hv)) fun o => ?_
  unfold uniquePost planPost
  refine Triple.ex_left fun t => Triple.pure_left ?_
  rintro ⟨h1, h2, h3, ⟨_, y, hy, hq', rfl⟩ | ⟨hint, k, rfl, rfl, _, hG⟩⟩
  · exact Triple.ret (ent_pure_right ⟨y, hy, hq', rfl⟩ (sep_mono (shape_tree h1 h2 h3) (ent_refl F)))
  · rcases hG ⟨0, 0, v⟩ rfl with ⟨h4, _⟩ | ⟨h4, _⟩
    · have h5 := congrArg List.length (h4.trans h1.symm)
      rw [toList_plug] at h5
      simp at h5
    · rw [h4 x hx] at hq; cases hq

/-! ### histories -/

theorem Safe.iterAt {i : Nat} {β : Type} {K : Nat → M V β} {Q : β → HProp V} (hi : i ≤ es.length) (hk : Safe (isTree a h g es ∗ F) (K (firstN (es.drop i) h)) Q) :
    Safe (isTree a h g es ∗ F) (Tree.iterAt a i >>= K) Q :=
  Safe.cps (iterAt_spec hi (Triple.ret (ent_pure_right rfl (ent_refl _)))) hk

theorem Safe.refOf {x : Arg} {β : Type} {K : Loc → M V β} {Q : β → HProp V} (hx : ValidArg R ρ es.length x)
    (hk : ∀ l v, l.1 ≠ 0 → ArgIs ρ es x v → Reads (isTree a h g es ∗ R) l v → Safe (isTree a h g es ∗ R) (K l) Q) :
    Safe (isTree a h g es ∗ R) (Tree.refOf a x >>= K) Q := by
  have h1 : Triple False (isTree a h g es ∗ R) (Tree.refOf a x >>= pure)
      (fun l => ⌜∃ v, l.1 ≠ 0 ∧ ArgIs ρ es x v ∧ Reads (isTree a h g es ∗ R) l v⌝ ∗ isTree a h g es ∗ R) :=
    refOf_spec hx fun l v h1 h2 h3 => Triple.ret (ent_pure_right ⟨v, h1, h2, h3⟩ (ent_refl _))
  rw [bind_pure] at h1
  refine Safe.step h1 fun l => Safe.pure_left ?_
  rintro ⟨v, h1, h2, h3⟩
  exact hk l v h1 h2 h3

theorem runOp_safe {op : Op} (hw : StrictWeak (klt E g)) (hs : KSorted E g es) (hv : Valid R ρ es.length op) :
    Safe (isTree a h g es ∗ R) (runOp E a op) (fun _ => ∃ₛ es', ⌜Step E g ρ es es' op⌝ ∗ isTree a h g es' ∗ R) := by
  cases op with
  | insertUnique x =>
    unfold runOp
    refine Safe.refOf hv fun l v hl hx hr => ?_
    refine Safe.bind (insertUniqueValue_safe hw hs hl hr) fun r => ?_
    refine Safe.ex fun es' => ?_
    refine Safe.pure_left ?_
    intro hu
    apply Safe.of_triple
    apply Triple.ret
    apply ent_ex_right es'
    exact ent_pure_right ⟨v, r, hx, hu⟩ (ent_refl _)
  | insertUniqueHint i x =>
    unfold runOp
    refine Safe.refOf hv.2 fun l v hl hx hr => ?_
    refine Safe.iterAt hv.1 ?_
    have he : es.take i ++ es.drop i = es := List.take_append_drop i es
    have := insertUnique_safe (E := E) (a := a) (h := h) (g := g) (F := R) (X := es.take i) (Y := es.drop i) (v := v) hw (he.symm ▸ hs) hl (he.symm ▸ hr)
    rw [he] at this
    refine Safe.bind this fun r => ?_
    refine Safe.ex fun es' => ?_
    refine Safe.pure_left ?_
    intro hu
    apply Safe.of_triple
    apply Triple.ret
    apply ent_ex_right es'
    exact ent_pure_right ⟨v, r, hx, hu⟩ (ent_refl _)
  | insertEqual x =>
    unfold runOp
    refine Safe.refOf hv fun l v hl hx hr => ?_
    refine Safe.bind (insertEqualValue_safe hw hs hl hr) fun r => ?_
    refine Safe.ex fun e => ?_
    refine Safe.pure_left ?_
    intro hu
    apply Safe.of_triple
    apply Triple.ret
    apply ent_ex_right (insAfter E g v es e)
    exact ent_pure_right ⟨v, e, hx, hu.2, rfl⟩ (ent_refl _)
  | insertEqualHint i x =>
    unfold runOp
    refine Safe.refOf hv.2 fun l v hl hx hr => ?_
    refine Safe.iterAt hv.1 ?_
    have he : es.take i ++ es.drop i = es := List.take_append_drop i es
    have := insertEqual_safe (E := E) (a := a) (h := h) (g := g) (F := R) (X := es.take i) (Y := es.drop i) (v := v) hw (he.symm ▸ hs) hl (he.symm ▸ hr)
    rw [he] at this
    refine Safe.bind this fun r => ?_
    refine Safe.ex fun e => ?_
    refine Safe.pure_left ?_
    intro hu
    apply Safe.of_triple
    apply Triple.ret
    apply ent_ex_right (hintIns E g v (es.take i) (es.drop i) e)
    exact ent_pure_right ⟨v, e, hx, hu.2, rfl⟩ (ent_refl _)
  | erase i =>
    apply Safe.of_triple
    unfold runOp
    have hi : i < es.length := hv
    refine iterAt_spec (Nat.le_of_lt hi) ?_
    obtain ⟨X, e, Y, rfl, rfl⟩ : ∃ X e Y, es = X ++ e :: Y ∧ X.length = i :=
      ⟨es.take i, es[i], es.drop (i+1), by simp, by simp; omega⟩
    rw [List.drop_left, CList.firstN_cons]
    refine Triple.bind erase_spec fun r => ?_
    apply Triple.pure_left
    intro _
    apply Triple.ret
    apply ent_ex_right (X ++ Y)
    refine ent_pure_right ?_ (ent_refl _)
    show X ++ Y = (X ++ e :: Y).eraseIdx X.length
    simp [List.eraseIdx_append]
  | eraseRange i j =>
    obtain ⟨h1, h2⟩ : i ≤ j ∧ j ≤ es.length := hv
    apply Safe.of_triple
    unfold runOp
    refine iterAt_spec (Nat.le_trans h1 h2) ?_
    refine iterAt_spec h2 ?_
    have cut : (es.drop i).take (j - i) ++ es.drop j = es.drop i := by
      rw [show es.drop j = (es.drop i).drop (j - i) by rw [List.drop_drop]; congr 1; omega, List.take_append_drop]
    have he := eraseRange_spec (nf := False) (a := a) (h := h) (g := g) (F := R) (X := es.take i) (W := (es.drop i).take (j - i)) (Y := es.drop j)
    rw [List.append_assoc, cut, List.take_append_drop] at he
    refine Triple.post he fun _ => ?_
    apply ent_ex_right (es.take i ++ es.drop j)
    exact ent_pure_right rfl (ent_refl _)
  | eraseKey x =>
    apply Safe.of_triple
    unfold runOp
    refine refOf_spec hv fun l v hl hx hr => ?_
    refine Triple.bind (eraseKey_spec hw hs hl hr) fun r => ?_
    apply Triple.pure_left
    intro _
    apply Triple.ret
    apply ent_ex_right (es.filter fun e => !keq E g v e)
    exact ent_pure_right ⟨v, hx, rfl⟩ (ent_refl _)
  | clear =>
    apply Safe.of_triple
    unfold runOp
    refine Triple.post clear_spec fun _ => ?_
    apply ent_ex_right []
    exact ent_pure_right rfl (ent_refl _)

theorem runOps_safe {ops : List Op} (hw : StrictWeak (klt E g)) (hs : KSorted E g es) (hv : ValidOps E g R ρ ops es) :
    Safe (isTree a h g es ∗ R) (runOps E a ops) (fun _ => ∃ₛ es', ⌜Run E g ρ ops es es' ∧ KSorted E g es'⌝ ∗ isTree a h g es' ∗ R) := by
  induction ops generalizing es with
  | nil =>
    rw [runOps]
    apply Safe.of_triple
    apply Triple.ret
    apply ent_ex_right es
    exact ent_pure_right ⟨Run.nil _, hs⟩ (ent_refl _)
  | cons op ops ih =>
    rw [runOps]
    refine Safe.bind (runOp_safe hw hs hv.1) fun _ => ?_
    refine Safe.ex fun ys => Safe.pure_left ?_
    intro hst
    refine Safe.post (ih (hst.sorted hw hs hv.1) (hv.2 ys hst)) fun _ => ?_
    refine ent_ex_left fun zs => ?_
    refine ent_pure_left fun h2 => ?_
    apply ent_ex_right zs
    exact ent_pure_right ⟨Run.cons hst h2.1, h2.2⟩ (ent_refl _)

end CC.Tree
