import Verif.Tree.Whole
import Verif.Algo.Base
/-!
# Insertion of a range of another tree; advance and reverse iterators
-/
namespace CC.Tree
open CC CC.Tac CC.CList
variable {V : Type} {β : Type} {nf : Prop} {E : Env V} {a h b k : Nat} {g g' : Cfg} {es X W Y : List (Elem V)} {e : Elem V} {F : HProp V}

/-- dereferencing an iterator of a tree -/
theorem deref_tree {Q : β → HProp V} {K : Loc → M V β}
    (hk : e.box ≠ 0 → Reads (isTree b k g' (X ++ e :: Y) ∗ F) (e.box, 1) e.val → Triple nf (isTree b k g' (X ++ e :: Y) ∗ F) (K (e.box, 1)) Q) :
    Triple nf (isTree b k g' (X ++ e :: Y) ∗ F) (iterDereference e.node >>= K) Q := by
  have hrd : Reads (isTree b k g' (X ++ e :: Y) ∗ F) (e.box, 1) e.val := by
    intro m hm
    unfold isTree at hm
    rw [hex_sep] at hm
    obtain ⟨t, ht⟩ := hm
    rw [sep_assoc] at ht
    obtain ⟨h1, h2⟩ := hpure_sep_apply.1 ht
    exact rd_val h1.1 m h2
  refine Triple.fact (p := e.box ≠ 0) (fun m hm => ?_) fun h0 => ?_
  · unfold isTree at hm
    rw [hex_sep] at hm
    obtain ⟨t, ht⟩ := hm
    rw [sep_assoc] at ht
    obtain ⟨h1, h2⟩ := hpure_sep_apply.1 ht
    obtain ⟨R, hR⟩ := shape_elm (a := b) (h := k) (g := g') h1.1
    rw [hR] at h2
    unfold elm at h2
    exact pts_ne_zero (l := (e.box, 1)) (v := .obj (some e.val)) (R := _) ((show _ ⊢ₛ _ by cancel) _ h2)
  refine with_tree fun t h1 h2 h3 => ?_
  unfold iterDereference
  rw [bind_assoc]
  refine ldN_reads (rd_box h1) ?_
  rw [pure_bind]
  exact Triple.pre (sep_mono (shape_tree h1 h2 h3) (ent_refl F)) (hk h0 hrd)

/-- the next position -/
theorem incr_tree {Q : β → HProp V} {K : Addr → M V β} (hk : Triple nf (isTree b k g' (X ++ e :: Y) ∗ F) (K (firstN Y k)) Q) :
    Triple nf (isTree b k g' (X ++ e :: Y) ∗ F) (iterIncrement e.node >>= K) Q := by
  refine with_tree fun t h1 h2 h3 => ?_
  refine increment_cps h1 ?_
  exact Triple.pre (sep_mono (shape_tree h1 h2 h3) (ent_refl F)) hk

theorem pos_ne_tree {m : M V β} {Q : β → HProp V}
    (hk : e.node ≠ firstN Y k → Triple nf (isTree b k g' (X ++ e :: W ++ Y) ∗ F) m Q) : Triple nf (isTree b k g' (X ++ e :: W ++ Y) ∗ F) m Q := by
  refine with_tree fun t h1 h2 h3 => ?_
  refine with_facts fun hf => ?_
  rw [h1] at hf
  exact Triple.pre (sep_mono (shape_tree h1 h2 h3) (ent_refl F)) (hk (pos_ne hf))

theorem insertUniqueRange_spec (hw : StrictWeak (klt E g)) (hs : KSorted E g es) :
    Triple True (isTree a h g es ∗ isTree b k g' (X ++ W ++ Y) ∗ F) (insertUniqueRange E a (firstN (W ++ Y) k) (firstN Y k))
      (fun _ => ∃ₛ es', ⌜Steps (fun v x y => ∃ r, UniqueIns E g v x r y) (vals W) es es'⌝ ∗ isTree a h g es' ∗ isTree b k g' (X ++ W ++ Y) ∗ F) := by
  induction W generalizing X es with
  | nil =>
    rw [insertUniqueRange, List.nil_append, if_neg (by simp)]
    apply Triple.ret
    apply ent_ex_right es
    exact ent_pure_right rfl (ent_refl _)
  | cons e W ih =>
    rw [sep_left_comm]
    refine pos_ne_tree fun hne => ?_
    rw [insertUniqueRange, List.cons_append, CList.firstN_cons, if_pos hne]
    have hl : X ++ e :: W ++ Y = X ++ e :: (W ++ Y) := by simp
    rw [hl]
    refine deref_tree fun hb hrd => ?_
    rw [sep_left_comm] at hrd ⊢
    refine Triple.bind (insertUniqueValue_spec hw hs hb hrd) fun r => ?_
    refine Triple.ex_left fun es1 => ?_
    apply Triple.pure_left
    intro h1
    rw [sep_left_comm]
    refine incr_tree ?_
    have hl' : X ++ e :: (W ++ Y) = X ++ [e] ++ W ++ Y := by simp
    rw [hl', sep_left_comm]
    refine Triple.post (ih (X := X ++ [e]) (es := es1) (h1.sorted hw hs)) fun _ => ?_
    refine ent_ex_left fun es2 => ent_pure_left fun h2 => ?_
    apply ent_ex_right es2
    exact ent_pure_right ⟨es1, ⟨r, h1⟩, h2⟩ (ent_refl _)

theorem insertEqualRange_spec (hw : StrictWeak (klt E g)) (hs : KSorted E g es) :
    Triple True (isTree a h g es ∗ isTree b k g' (X ++ W ++ Y) ∗ F) (insertEqualRange E a (firstN (W ++ Y) k) (firstN Y k))
      (fun _ => ∃ₛ es', ⌜Steps (fun v x y => ∃ e, e.val = v ∧ y = insAfter E g v x e) (vals W) es es'⌝ ∗ isTree a h g es' ∗ isTree b k g' (X ++ W ++ Y) ∗ F) := by
  induction W generalizing X es with
  | nil =>
    rw [insertEqualRange, List.nil_append, if_neg (by simp)]
    apply Triple.ret
    apply ent_ex_right es
    exact ent_pure_right rfl (ent_refl _)
  | cons e W ih =>
    rw [sep_left_comm]
    refine pos_ne_tree fun hne => ?_
    rw [insertEqualRange, List.cons_append, CList.firstN_cons, if_pos hne]
    have hl : X ++ e :: W ++ Y = X ++ e :: (W ++ Y) := by simp
    rw [hl]
    refine deref_tree fun hb hrd => ?_
    rw [sep_left_comm] at hrd ⊢
    refine Triple.bind (insertEqualValue_spec hw hs hb hrd) fun r => ?_
    refine Triple.ex_left fun e1 => ?_
    apply Triple.pure_left
    rintro ⟨_, he⟩
    rw [sep_left_comm]
    refine incr_tree ?_
    have hl' : X ++ e :: (W ++ Y) = X ++ [e] ++ W ++ Y := by simp
    rw [hl', sep_left_comm]
    refine Triple.post (ih (X := X ++ [e]) (insAfter_sorted hw hs he)) fun _ => ?_
    refine ent_ex_left fun es2 => ent_pure_left fun h2 => ?_
    apply ent_ex_right es2
    exact ent_pure_right ⟨_, ⟨e1, he, rfl⟩, h2⟩ (ent_refl _)

/-- `c_tree_insert_unique_range`, c_tree.c:1124-1140, for the iterators of any container whose elements are in the slots `c first`, …, `c (last - 1)` (see Algo/Base.lean) -/
def insertUniqueSlots (E : Env V) (a : Addr) (c : Algo.Slots) (first last : Nat) : M V Unit :=
  if first ≠ last then do
    let _ ← insertUniqueValue E a (c first)
    insertUniqueSlots E a c (first + 1) last
  else pure ()
partial_fixpoint
/-- `c_tree_insert_equal_range`, c_tree.c:1210-1226, for the iterators of any container -/
def insertEqualSlots (E : Env V) (a : Addr) (c : Algo.Slots) (first last : Nat) : M V Unit :=
  if first ≠ last then do
    let _ ← insertEqualValue E a (c first)
    insertEqualSlots E a c (first + 1) last
  else pure ()
partial_fixpoint

theorem insertUniqueSlots_spec {c : Algo.Slots} {i : Nat} {vs : List V} (hw : StrictWeak (klt E g)) (hs : KSorted E g es) (hr : Algo.Rng F c i vs)
    (hc : ∀ j, (c j).1 ≠ 0) :
    Triple True (isTree a h g es ∗ F) (insertUniqueSlots E a c i (i + vs.length))
      (fun _ => ∃ₛ es', ⌜Steps (fun v x y => ∃ r, UniqueIns E g v x r y) vs es es'⌝ ∗ isTree a h g es' ∗ F) := by
  induction vs generalizing i es with
  | nil =>
    rw [insertUniqueSlots, if_neg (by simp)]
    apply Triple.ret
    apply ent_ex_right es
    exact ent_pure_right rfl (ent_refl _)
  | cons v vs ih =>
    rw [insertUniqueSlots, if_pos (by simp)]
    have h0 : Reads F (c i) v := hr 0 (by simp)
    refine Triple.bind (insertUniqueValue_spec hw hs (hc i) h0.right) fun r => ?_
    refine Triple.ex_left fun es1 => ?_
    apply Triple.pure_left
    intro h1
    have hr' : Algo.Rng F c (i + 1) vs := fun k hk => by
      have := hr (k + 1) (by simpa using hk)
      simpa [show i + (k + 1) = i + 1 + k by omega] using this
    rw [List.length_cons, show i + (vs.length + 1) = i + 1 + vs.length by omega]
    refine Triple.post (ih (i := i + 1) (h1.sorted hw hs) hr') fun _ => ?_
    refine ent_ex_left fun es2 => ent_pure_left fun h2 => ?_
    apply ent_ex_right es2
    exact ent_pure_right ⟨es1, ⟨r, h1⟩, h2⟩ (ent_refl _)

theorem insertEqualSlots_spec {c : Algo.Slots} {i : Nat} {vs : List V} (hw : StrictWeak (klt E g)) (hs : KSorted E g es) (hr : Algo.Rng F c i vs)
    (hc : ∀ j, (c j).1 ≠ 0) :
    Triple True (isTree a h g es ∗ F) (insertEqualSlots E a c i (i + vs.length))
      (fun _ => ∃ₛ es', ⌜Steps (fun v x y => ∃ e, e.val = v ∧ y = insAfter E g v x e) vs es es'⌝ ∗ isTree a h g es' ∗ F) := by
  induction vs generalizing i es with
  | nil =>
    rw [insertEqualSlots, if_neg (by simp)]
    apply Triple.ret
    apply ent_ex_right es
    exact ent_pure_right rfl (ent_refl _)
  | cons v vs ih =>
    rw [insertEqualSlots, if_pos (by simp)]
    have h0 : Reads F (c i) v := hr 0 (by simp)
    refine Triple.bind (insertEqualValue_spec hw hs (hc i) h0.right) fun r => ?_
    refine Triple.ex_left fun e1 => ?_
    apply Triple.pure_left
    rintro ⟨_, he⟩
    have hr' : Algo.Rng F c (i + 1) vs := fun k hk => by
      have := hr (k + 1) (by simpa using hk)
      simpa [show i + (k + 1) = i + 1 + k by omega] using this
    rw [List.length_cons, show i + (vs.length + 1) = i + 1 + vs.length by omega]
    refine Triple.post (ih (i := i + 1) (insAfter_sorted hw hs he) hr') fun _ => ?_
    refine ent_ex_left fun es2 => ent_pure_left fun h2 => ?_
    apply ent_ex_right es2
    exact ent_pure_right ⟨_, ⟨e1, he, rfl⟩, h2⟩ (ent_refl _)

/-- advancing forward over the elements `W` -/
theorem advanceFwd_spec : Triple nf (isTree b k g' (X ++ W ++ Y) ∗ F) (advanceFwd (firstN (W ++ Y) k) W.length)
    (fun r => ⌜r = firstN Y k⌝ ∗ isTree b k g' (X ++ W ++ Y) ∗ F) := by
  induction W generalizing X with
  | nil => exact Triple.ret (ent_pure_right rfl (ent_refl _))
  | cons e W ih =>
    have hl : X ++ e :: W ++ Y = X ++ e :: (W ++ Y) := by simp
    have hl' : X ++ e :: (W ++ Y) = X ++ [e] ++ W ++ Y := by simp
    rw [List.length_cons, advanceFwd, List.cons_append, CList.firstN_cons, hl]
    refine incr_tree ?_
    rw [hl']
    exact ih

/-- advancing backward over the elements `W` -/
theorem advanceBwd_spec : Triple nf (isTree b k g' (X ++ W ++ Y) ∗ F) (advanceBwd (firstN Y k) W.length)
    (fun r => ⌜r = firstN (W ++ Y) k⌝ ∗ isTree b k g' (X ++ W ++ Y) ∗ F) := by
  induction hM : W.length generalizing W Y with
  | zero =>
    obtain rfl := List.length_eq_zero_iff.1 hM
    exact Triple.ret (ent_pure_right rfl (ent_refl _))
  | succ n ih =>
    rcases List.eq_nil_or_concat W with rfl | ⟨W', e, rfl⟩
    · simp at hM
    simp only [List.concat_eq_append, List.length_append, List.length_singleton, Nat.add_right_cancel_iff] at hM ⊢
    rw [advanceBwd]
    refine with_tree fun t h1 h2 h3 => ?_
    refine decrement_pos (X := X ++ W' ++ [e]) (by rw [h1]; simp) h2 (by simp) ?_
    rw [lastN_snoc]
    refine Triple.pre (sep_mono (shape_tree h1 h2 h3) (ent_refl F)) ?_
    have := ih (W := W') (Y := e :: Y) hM
    simpa using this

end CC.Tree
