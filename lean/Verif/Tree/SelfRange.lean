import Verif.Core.Never
import Verif.Tree.Range
/-!
# Inserting a range of a tree into the tree itself
-/
namespace CC.Tree
open CC CC.Tac CC.CList
variable {V : Type} {β : Type} {nf : Prop} {E : Env V} {a h : Nat} {g : Cfg} {es X W Y : List (Elem V)} {e : Elem V} {F : HProp V}

/-- unique insertion of own elements: they are all there already -/
theorem insertUniqueRange_self (hw : StrictWeak (klt E g)) (hs : KSorted E g (X ++ W ++ Y)) :
    Triple True (isTree a h g (X ++ W ++ Y) ∗ F) (insertUniqueRange E a (firstN (W ++ Y) h) (firstN Y h))
      (fun _ => isTree a h g (X ++ W ++ Y) ∗ F) := by
  induction W generalizing X with
  | nil =>
    rw [insertUniqueRange, List.nil_append, if_neg (by simp)]
    apply Triple.ret
    exact ent_refl _
  | cons e W ih =>
    refine pos_ne_tree fun hne => ?_
    rw [insertUniqueRange, List.cons_append, CList.firstN_cons, if_pos hne]
    have hl : X ++ e :: W ++ Y = X ++ e :: (W ++ Y) := by simp
    rw [hl] at hs ⊢
    refine deref_tree fun hb hrd => ?_
    refine Triple.bind (insertUniqueValue_spec hw hs hb hrd) fun r => ?_
    refine Triple.ex_left fun es1 => ?_
    apply Triple.pure_left
    intro h1
    have he : es1 = X ++ e :: (W ++ Y) := by
      rcases h1 with ⟨h1, _⟩ | ⟨h1, _⟩
      · exact h1
      · have := h1 e (by simp)
        unfold keq equivB ek at this
        simp [hw.irrefl] at this
    subst he
    refine incr_tree ?_
    have hl' : X ++ e :: (W ++ Y) = X ++ [e] ++ W ++ Y := by simp
    rw [hl'] at hs ⊢
    exact ih (X := X ++ [e]) hs

/-- one round of `c_tree_insert_equal_range` -/
def equalRound (E : Env V) (a first : Addr) : M V Addr := do
  let r ← iterDereference first
  let _ ← insertEqualValue E a r
  iterIncrement first

theorem equalRound_spec (hw : StrictWeak (klt E g)) (hs : KSorted E g (X ++ e :: Y)) :
    Triple True (isTree a h g (X ++ e :: Y) ∗ F) (equalRound E a e.node)
      (fun r => hex fun p : List (Elem V) × Elem V × List (Elem V) =>
        ⌜r = p.2.1.node ∧ KSorted E g (p.1 ++ p.2.1 :: p.2.2)⌝ ∗ isTree a h g (p.1 ++ p.2.1 :: p.2.2) ∗ F) := by
  unfold equalRound
  refine deref_tree fun hb hrd => ?_
  refine Triple.bind (insertEqualValue_spec hw hs hb hrd) fun r => ?_
  refine Triple.ex_left fun e1 => ?_
  apply Triple.pure_left
  rintro ⟨_, he⟩
  have hs' := insAfter_sorted hw hs he
  obtain ⟨A, B, h1, h2, h3⟩ : ∃ A B, X ++ e :: Y = A ++ B ∧ insAfter E g e.val (X ++ e :: Y) e1 = A ++ e1 :: B ∧ e ∈ A := by
    refine ⟨_, _, insAfter_split hw hs e.val, rfl, ?_⟩
    rw [List.mem_filter]
    refine ⟨by simp, ?_⟩
    show (!klt E g (E.kov g.kov e.val) (E.kov g.kov e.val)) = true
    rw [hw.irrefl]
    rfl
  rw [h2] at hs' ⊢
  obtain ⟨A1, A2, rfl⟩ := List.append_of_mem h3
  obtain ⟨p, P, hp⟩ := List.exists_cons_of_ne_nil (l := A2 ++ e1 :: B) (by simp)
  have hl : A1 ++ e :: A2 ++ e1 :: B = A1 ++ e :: (p :: P) := by simp [← hp]
  rw [hl] at hs' ⊢
  rw [← bind_pure (iterIncrement e.node)]
  refine incr_tree ?_
  apply Triple.ret
  apply ent_ex_right (A1 ++ [e], p, P)
  refine ent_pure_right ⟨rfl, by simpa using hs'⟩ ?_
  have : A1 ++ e :: p :: P = A1 ++ [e] ++ p :: P := by simp
  rw [this]
  exact ent_refl _

/-- insertion of the own elements up to the end: every round inserts an element before the end, the end is never reached -/
theorem insertEqualRange_self (hw : StrictWeak (klt E g)) (hs : KSorted E g (X ++ e :: Y)) :
    Never True (isTree a h g (X ++ e :: Y) ∗ F) (insertEqualRange E a e.node h) := by
  refine insertEqualRange.fixpoint_induct E a h
    (fun f => ∀ n R, (∃ (X : List (Elem V)) (e : Elem V) (Y : List (Elem V)), n = e.node ∧ KSorted E g (X ++ e :: Y) ∧ R = (isTree a h g (X ++ e :: Y) ∗ F)) → Never True R (f n))
    Never.adm1 ?_ _ _ ⟨X, e, Y, rfl, hs, rfl⟩
  rintro f ih _ _ ⟨X, e, Y, rfl, hs, rfl⟩
  have hstep : (do
      let r ← iterDereference e.node
      let _ ← insertEqualValue E a r
      let first ← iterIncrement e.node
      f first : M V Unit) = (equalRound E a e.node >>= f) := by
    unfold equalRound
    simp only [bind_assoc]
  dsimp only
  refine Never.fact (p := e.node ≠ h) (fun m hm => ?_) fun hne => ?_
  · unfold isTree at hm
    rw [hex_sep] at hm
    obtain ⟨t, ht⟩ := hm
    rw [sep_assoc] at ht
    obtain ⟨h1, h2⟩ := hpure_sep_apply.1 ht
    have hf := shape_facts h2
    rw [h1.1] at hf
    exact (hf.ne e (by simp)).1
  rw [if_pos hne, hstep]
  have h0 := Never.bind (F := emp) (k := f) (equalRound_spec (a := a) (h := h) (F := F) hw hs) (fun r => by
    refine Never.ex fun p => ?_
    rw [sep_assoc]
    refine Never.pure_left fun hp => ?_
    rw [sep_emp, hp.1]
    exact ih _ _ ⟨p.1, p.2.1, p.2.2, rfl, hp.2, rfl⟩)
  rw [sep_emp] at h0
  exact h0

end CC.Tree
