import Verif.Tree.Edit
/-!
# Erasing by key, whole-tree operations, and what keeps the order
-/
namespace CC.Tree
open CC CC.Tac T
open CC.CList (Elem nodes vals firstN lastN)
variable {V β : Type} {nf : Prop} {E : Env V} {a h : Nat} {g : Cfg} {es : List (Elem V)} {F : HProp V}

/-! ### lists that are split by a monotone predicate -/

theorem Mono.tail {p : Elem V → Bool} {e : Elem V} (hm : Mono p (e :: es)) : Mono p es := (List.pairwise_cons.1 hm).2

theorem Mono.split {p : Elem V → Bool} (hm : Mono p es) : es = es.filter p ++ es.filter (fun e => !p e) := by
  induction es with
  | nil => rfl
  | cons e es ih =>
    have h1 := (List.pairwise_cons.1 hm).1
    have h2 := ih hm.tail
    cases hp : p e
    · have h3 : es.filter p = [] := List.filter_eq_nil_iff.2 fun x hx h => by
        rw [h1 x hx h] at hp; cases hp
      rw [h3, List.nil_append] at h2
      simp [hp, h3, ← h2]
    · simp only [List.filter_cons, hp, ↓reduceIte, Bool.not_true, Bool.false_eq_true, List.cons_append]
      rw [← h2]

theorem Mono.filter {p q : Elem V → Bool} (hm : Mono p es) : Mono p (es.filter q) := List.Pairwise.filter _ hm

theorem KSorted.filter {q : Elem V → Bool} (hs : KSorted E g es) : KSorted E g (es.filter q) :=
  KSorted.iff.2 (List.Pairwise.filter _ (KSorted.iff.1 hs))

theorem KSorted.sub {es' : List (Elem V)} (hs : KSorted E g es) (hsub : es'.Sublist es) : KSorted E g es' :=
  KSorted.iff.2 (List.Pairwise.sublist hsub (KSorted.iff.1 hs))

/-- the elements with smaller, equivalent and greater keys -/
theorem KSorted.three {v : V} (hw : StrictWeak (klt E g)) (hs : KSorted E g es) :
    es = es.filter (fun e => klt E g (ek E g e) v) ++ es.filter (keq E g v) ++ es.filter (fun e => klt E g v (ek E g e)) ∧
    es.filter (fun e => !klt E g (ek E g e) v) = es.filter (keq E g v) ++ es.filter (fun e => klt E g v (ek E g e)) ∧
    es.filter (fun e => !keq E g v e) = es.filter (fun e => klt E g (ek E g e) v) ++ es.filter (fun e => klt E g v (ek E g e)) := by
  have h1 := (hs.lower (v := v) hw).split
  have h2 := ((hs.filter (q := fun e => !klt E g (ek E g e) v)).upper (v := v) hw).split
  simp only [Bool.not_not, List.filter_filter] at h2
  have h3 : es.filter (fun a => !klt E g v (ek E g a) && !klt E g (ek E g a) v) = es.filter (keq E g v) := by
    apply List.filter_congr
    intro x _
    rfl
  have h4 : es.filter (fun a => klt E g v (ek E g a) && !klt E g (ek E g a) v) = es.filter (fun e => klt E g v (ek E g e)) := by
    apply List.filter_congr
    intro x _
    cases hx : klt E g v (ek E g x)
    · rfl
    · rw [hw.asymm hx]; rfl
  rw [h3, h4] at h2
  have h5 : es = es.filter (fun e => klt E g (ek E g e) v) ++ es.filter (keq E g v) ++ es.filter (fun e => klt E g v (ek E g e)) := by
    rw [List.append_assoc, ← h2]; exact h1
  refine ⟨h5, h2, ?_⟩
  conv => lhs; rw [h5]
  simp only [List.filter_append, List.filter_filter]
  have e1 : es.filter (fun a => !keq E g v a && klt E g (ek E g a) v) = es.filter (fun e => klt E g (ek E g e) v) := by
    apply List.filter_congr
    intro x _
    simp only [keq, equivB]
    cases klt E g (ek E g x) v <;> simp
  have e2 : es.filter (fun a => !keq E g v a && keq E g v a) = [] := List.filter_eq_nil_iff.2 fun x _ => by simp
  have e3 : es.filter (fun a => !keq E g v a && klt E g v (ek E g a)) = es.filter (fun e => klt E g v (ek E g e)) := by
    apply List.filter_congr
    intro x _
    simp only [keq, equivB]
    cases klt E g v (ek E g x) <;> simp
  rw [e1, e2, e3, List.append_nil]

/-! ### c_tree_erase_key -/

theorem eraseKey_spec {key : Loc} {v : V} (hw : StrictWeak (klt E g)) (hs : KSorted E g es) (hk0 : key.1 ≠ 0) (hv : Reads (isTree a h g es ∗ F) key v) :
    Triple nf (isTree a h g es ∗ F) (eraseKey E a key)
      (fun r => ⌜r = es.countP (keq E g v)⌝ ∗ isTree a h g (es.filter fun e => !keq E g v e) ∗ F) := by
  obtain ⟨k1, k2, k3⟩ := hs.three (v := v) hw
  refine with_tree fun t h1 h2 h3 => ?_
  refine with_facts fun hf => ?_
  have hv' := reads_shape h1 h2 h3 hv
  rw [← h1] at hs
  unfold eraseKey
  rw [if_neg (by simp [hf.a0, hk0])]
  refine lowerBound_cps hw hs h3 hk0 hv' ?_
  refine upperBound_cps hw hs h3 hk0 hv' ?_
  rw [h1, k2]
  unfold iterDistance
  refine distanceLoop_cps (X := es.filter (fun e => klt E g (ek E g e) v)) (h1.trans k1) ?_
  refine Triple.pre (sep_mono (shape_tree h1 h2 h3) (ent_refl F)) ?_
  rw [k3]
  conv => arg 2; arg 1; arg 4; rw [k1]
  refine Triple.bind eraseRange_spec fun _ => ?_
  apply Triple.ret
  rw [Nat.zero_add, List.countP_eq_length_filter]
  exact ent_pure_right rfl (ent_refl _)

/-- the loop of `c_tree_erase_from` with the right stride: the elements equivalent to one of the keys disappear -/
theorem eraseFrom_spec {b i : Nat} {vs : List V} (hw : StrictWeak (klt E g)) (hs : KSorted E g es) (hb : b ≠ 0) :
    Triple nf (isTree a h g es ∗ arr b i (vs.map fun v => .obj (some v)) ∗ F) (eraseFrom E 1 a (b, i) (b, i + vs.length))
      (fun _ => isTree a h g (es.filter fun e => !vs.any fun v => keq E g v e) ∗ arr b i (vs.map fun v => .obj (some v)) ∗ F) := by
  induction vs generalizing i es F with
  | nil =>
    rw [eraseFrom, if_neg (by simp)]
    apply Triple.ret
    rw [List.filter_eq_self.2 (by simp)]
    exact ent_refl _
  | cons v vs ih =>
    rw [eraseFrom, if_pos (by simp)]
    rw [List.map_cons, arr]
    simp only [sep_assoc]
    refine Triple.bind (eraseKey_spec (v := v) hw hs hb ?_) fun r => ?_
    · intro m hm
      exact pts_sep_cells (R := _) ((show _ ⊢ₛ _ by cancel) _ hm)
    apply Triple.pure_left
    rintro _
    have := ih (i := i + 1) (es := es.filter fun e => !keq E g v e) (F := pts (b, i) (.obj (some v)) ∗ F) hs.filter
    rw [List.length_cons, show i + (vs.length + 1) = i + 1 + vs.length by omega]
    refine Triple.conseq this (by cancel) ?_
    intro _
    have e1 : (es.filter fun e => !keq E g v e).filter (fun e => !vs.any fun v => keq E g v e) = es.filter fun e => !(v :: vs).any fun v => keq E g v e := by
      rw [List.filter_filter]
      apply List.filter_congr
      intro x _
      simp only [List.any_cons, Bool.not_or]
      exact Bool.and_comm _ _
    rw [e1]
    cancel

theorem eraseFromC_spec {b i : Nat} {vs : List V} (hw : StrictWeak (klt E g)) (hs : KSorted E g es) (hb : b ≠ 0) :
    Triple nf (isTree a h g es ∗ arr b i (vs.map fun v => .obj (some v)) ∗ F) (eraseFromC E 1 a (b, i) (b, i + vs.length))
      (fun _ => isTree a h g (es.filter fun e => !vs.any fun v => keq E g v e) ∗ arr b i (vs.map fun v => .obj (some v)) ∗ F) := by
  refine with_tree fun t h1 h2 h3 => ?_
  refine with_facts fun hf => ?_
  refine Triple.pre (sep_mono (shape_tree h1 h2 h3) (ent_refl _)) ?_
  unfold eraseFromC
  rw [if_neg (by simp [hf.a0, hb])]
  exact eraseFrom_spec hw hs hb

/-! ### sortedness is kept -/

theorem KSorted.insert {X Y : List (Elem V)} {e : Elem V} (hw : StrictWeak (klt E g)) (hs : KSorted E g (X ++ Y)) (h1 : ∀ x ∈ X, klt E g (ek E g e) (ek E g x) = false)
    (h2 : ∀ y ∈ Y, klt E g (ek E g y) (ek E g e) = false) : KSorted E g (X ++ e :: Y) := by
  have hs := KSorted.iff.1 hs
  rw [List.pairwise_append] at hs
  refine KSorted.iff.2 ?_
  rw [List.pairwise_append, List.pairwise_cons]
  refine ⟨hs.1, ⟨h2, hs.2.1⟩, fun x hx y hy => ?_⟩
  rcases List.mem_cons.1 hy with rfl | hy
  · exact h1 x hx
  · exact hs.2.2 x hx y hy

theorem insAfter_split (hw : StrictWeak (klt E g)) (hs : KSorted E g es) (v : V) :
    es = es.filter (fun x => !klt E g (E.kov g.kov v) (ek E g x)) ++ es.filter (fun x => klt E g (E.kov g.kov v) (ek E g x)) := by
  have := (hs.upper (v := E.kov g.kov v) hw).split
  simpa using this

theorem insAfter_sorted (hw : StrictWeak (klt E g)) (hs : KSorted E g es) {v : V} {e : Elem V} (he : e.val = v) : KSorted E g (insAfter E g v es e) := by
  have h1 := insAfter_split hw hs v
  have h2 := hs
  rw [h1] at h2
  subst he
  refine h2.insert hw (fun x hx => ?_) fun y hy => ?_
  · simpa [ek] using (List.mem_filter.1 hx).2
  · exact hw.asymm (List.mem_filter.1 hy).2

theorem fits_iff {v : V} {X Y : List (Elem V)} : fits E g v X Y = true ↔
    (∀ x ∈ X, klt E g (E.kov g.kov v) (ek E g x) = false) ∧ (∀ y ∈ Y, klt E g (ek E g y) (E.kov g.kov v) = false) := by
  simp [fits, Bool.and_eq_true, List.all_eq_true]

theorem hintIns_sorted (hw : StrictWeak (klt E g)) {X Y : List (Elem V)} (hs : KSorted E g (X ++ Y)) {v : V} {e : Elem V} (he : e.val = v) : KSorted E g (hintIns E g v X Y e) := by
  unfold hintIns
  split
  · rename_i hf
    obtain ⟨f1, f2⟩ := fits_iff.1 hf
    subst he
    exact hs.insert hw f1 f2
  · exact insAfter_sorted hw hs he

/-- `insAfter` and `hintIns` add exactly one element, and leave the others in their order -/
theorem insAfter_perm (hw : StrictWeak (klt E g)) (hs : KSorted E g es) {v : V} {e : Elem V} : ∃ X Y, es = X ++ Y ∧ insAfter E g v es e = X ++ e :: Y :=
  ⟨_, _, insAfter_split hw hs v, rfl⟩
theorem hintIns_perm (hw : StrictWeak (klt E g)) {X Y : List (Elem V)} (hs : KSorted E g (X ++ Y)) {v : V} {e : Elem V} :
    ∃ X' Y', X ++ Y = X' ++ Y' ∧ hintIns E g v X Y e = X' ++ e :: Y' := by
  unfold hintIns
  split
  · exact ⟨X, Y, rfl, rfl⟩
  · exact insAfter_perm hw hs

/-- no two equivalent keys -/
def KUnique (E : Env V) (g : Cfg) (es : List (Elem V)) : Prop := (es.map (ek E g)).Pairwise fun x y => klt E g x y = true

theorem KUnique.iff : KUnique E g es ↔ es.Pairwise fun x y => klt E g (ek E g x) (ek E g y) = true := by
  unfold KUnique; rw [List.pairwise_map]

theorem KUnique.sorted (hw : StrictWeak (klt E g)) (hu : KUnique E g es) : KSorted E g es :=
  KSorted.iff.2 ((KUnique.iff.1 hu).imp fun h => hw.asymm h)
theorem KUnique.sub {es' : List (Elem V)} (hs : KUnique E g es) (hsub : es'.Sublist es) : KUnique E g es' :=
  KUnique.iff.2 (List.Pairwise.sublist hsub (KUnique.iff.1 hs))

theorem UniqueIns.sorted (hw : StrictWeak (klt E g)) {v : V} {r : Nat} {es' : List (Elem V)} (hs : KSorted E g es) (hu : UniqueIns E g v es r es') : KSorted E g es' := by
  rcases hu with ⟨rfl, _⟩ | ⟨_, e, he, _, rfl⟩
  · exact hs
  · exact insAfter_sorted hw hs he

theorem UniqueIns.unique (hw : StrictWeak (klt E g)) {v : V} {r : Nat} {es' : List (Elem V)} (hs : KUnique E g es) (hu : UniqueIns E g v es r es') : KUnique E g es' := by
  rcases hu with ⟨rfl, _⟩ | ⟨hn, e, he, _, rfl⟩
  · exact hs
  · have h1 := insAfter_split hw (hs.sorted hw) v
    have h2 := KUnique.iff.1 hs
    rw [h1, List.pairwise_append] at h2
    subst he
    refine KUnique.iff.2 ?_
    unfold insAfter
    rw [List.pairwise_append, List.pairwise_cons]
    refine ⟨h2.1, ⟨fun y hy => (List.mem_filter.1 hy).2, h2.2.1⟩, fun x hx y hy => ?_⟩
    rcases List.mem_cons.1 hy with rfl | hy
    · have hx' := List.mem_filter.1 hx
      have := hn x hx'.1
      simp only [keq, equivB] at this
      have h3 : klt E g (E.kov g.kov y.val) (ek E g x) = false := by simpa using hx'.2
      rw [h3] at this
      simpa [ek] using this
    · exact h2.2.2 x hx y hy

/-- equal insertion is stable: among the elements equivalent to any key, the new one comes last -/
theorem insAfter_stable (hw : StrictWeak (klt E g)) (hs : KSorted E g es) {v : V} {e : Elem V} (he : e.val = v) (k : V) :
    (insAfter E g v es e).filter (keq E g k) = (es ++ [e]).filter (keq E g k) := by
  have h1 := insAfter_split hw hs v
  conv => rhs; rw [h1]
  unfold insAfter
  rw [List.filter_append, List.filter_append, List.filter_append, List.filter_cons]
  cases hk : keq E g k e
  · simp [hk]
  · have h2 : (es.filter (fun x => klt E g (E.kov g.kov v) (ek E g x))).filter (keq E g k) = [] := by
      refine List.filter_eq_nil_iff.2 fun x hx hkx => ?_
      have hlt := (List.mem_filter.1 hx).2
      have hke := hw.equivB_left hk (ek E g x)
      have h3 : klt E g k (ek E g x) = false := by
        simp only [keq, equivB, Bool.and_eq_true, Bool.not_eq_true'] at hkx
        exact hkx.1
      rw [h3] at hke
      subst he
      rw [← show ek E g e = E.kov g.kov e.val from rfl, ← hke] at hlt
      cases hlt
    rw [h2]
    simp [hk]

/-! ### insertion of a whole array -/

/-- one step per value -/
def Steps (R : V → List (Elem V) → List (Elem V) → Prop) : List V → List (Elem V) → List (Elem V) → Prop
  | [], x, y => y = x
  | v :: vs, x, z => ∃ y, R v x y ∧ Steps R vs y z

theorem insertUniqueFrom_spec {b i : Nat} {vs : List V} (hw : StrictWeak (klt E g)) (hs : KSorted E g es) (hb : b ≠ 0) :
    Triple True (isTree a h g es ∗ arr b i (vs.map fun v => .obj (some v)) ∗ F) (insertUniqueFrom E a (b, i) (b, i + vs.length))
      (fun _ => ∃ₛ es', ⌜Steps (fun v x y => ∃ r, UniqueIns E g v x r y) vs es es'⌝ ∗ isTree a h g es' ∗ arr b i (vs.map fun v => .obj (some v)) ∗ F) := by
  induction vs generalizing i es F with
  | nil =>
    rw [insertUniqueFrom, if_neg (by simp)]
    apply Triple.ret
    apply ent_ex_right es
    exact ent_pure_right rfl (ent_refl _)
  | cons v vs ih =>
    rw [insertUniqueFrom, if_pos (by simp)]
    rw [List.map_cons, arr]
    simp only [sep_assoc]
    refine Triple.bind (insertUniqueValue_spec (v := v) hw hs hb ?_) fun r => ?_
    · intro m hm
      exact pts_sep_cells (R := _) ((show _ ⊢ₛ _ by cancel) _ hm)
    refine Triple.ex_left fun es1 => ?_
    apply Triple.pure_left
    intro h1
    have := ih (i := i + 1) (es := es1) (F := pts (b, i) (.obj (some v)) ∗ F) (h1.sorted hw hs)
    rw [List.length_cons, show i + (vs.length + 1) = i + 1 + vs.length by omega]
    refine Triple.conseq this (by cancel) ?_
    intro _
    refine ent_ex_left fun es2 => ?_
    refine ent_pure_left fun h2 => ?_
    apply ent_ex_right es2
    refine ent_pure_right ⟨es1, ⟨r, h1⟩, h2⟩ ?_
    cancel

theorem insertEqualFrom_spec {b i : Nat} {vs : List V} (hw : StrictWeak (klt E g)) (hs : KSorted E g es) (hb : b ≠ 0) :
    Triple True (isTree a h g es ∗ arr b i (vs.map fun v => .obj (some v)) ∗ F) (insertEqualFrom E a (b, i) (b, i + vs.length))
      (fun _ => ∃ₛ es', ⌜Steps (fun v x y => ∃ e, e.val = v ∧ y = insAfter E g v x e) vs es es'⌝ ∗ isTree a h g es' ∗ arr b i (vs.map fun v => .obj (some v)) ∗ F) := by
  induction vs generalizing i es F with
  | nil =>
    rw [insertEqualFrom, if_neg (by simp)]
    apply Triple.ret
    apply ent_ex_right es
    exact ent_pure_right rfl (ent_refl _)
  | cons v vs ih =>
    rw [insertEqualFrom, if_pos (by simp)]
    rw [List.map_cons, arr]
    simp only [sep_assoc]
    refine Triple.bind (insertEqualValue_spec (v := v) hw hs hb ?_) fun r => ?_
    · intro m hm
      exact pts_sep_cells (R := _) ((show _ ⊢ₛ _ by cancel) _ hm)
    refine Triple.ex_left fun e => ?_
    apply Triple.pure_left
    rintro ⟨_, he⟩
    have := ih (i := i + 1) (es := insAfter E g v es e) (F := pts (b, i) (.obj (some v)) ∗ F) (insAfter_sorted hw hs he)
    rw [List.length_cons, show i + (vs.length + 1) = i + 1 + vs.length by omega]
    refine Triple.conseq this (by cancel) ?_
    intro _
    refine ent_ex_left fun es2 => ?_
    refine ent_pure_left fun h2 => ?_
    apply ent_ex_right es2
    refine ent_pure_right ⟨_, ⟨e, he, rfl⟩, h2⟩ ?_
    cancel

/-- the result of inserting all values with `insert_equal`: the stably sorted list of the old and the new elements -/
theorem Steps.equal (hw : StrictWeak (klt E g)) {vs : List V} {es' : List (Elem V)} (hs : KSorted E g es)
    (h : Steps (fun v x y => ∃ e : Elem V, e.val = v ∧ y = insAfter E g v x e) vs es es') :
    KSorted E g es' ∧ ∃ N : List (Elem V), vals N = vs ∧ es'.Perm (es ++ N) ∧ ∀ k, es'.filter (keq E g k) = (es ++ N).filter (keq E g k) := by
  induction vs generalizing es with
  | nil => cases h; exact ⟨hs, [], rfl, by simp, by simp⟩
  | cons v vs ih =>
    obtain ⟨y, ⟨e, he, rfl⟩, h2⟩ := h
    obtain ⟨i1, N, i2, i3, i4⟩ := ih (insAfter_sorted hw hs he) h2
    refine ⟨i1, e :: N, by simp [vals, he] at i2 ⊢; exact i2, ?_, fun k => ?_⟩
    · refine i3.trans ?_
      obtain ⟨X, Y, e1, e2⟩ := insAfter_perm (e := e) (v := v) hw hs
      rw [e2, e1]
      have : (X ++ e :: Y).Perm (X ++ Y ++ [e]) := by
        rw [List.append_assoc]
        exact List.Perm.append_left X (List.perm_append_singleton e Y).symm
      have h5 := this.append_right N
      simpa using h5
    · rw [i4 k, List.filter_append, insAfter_stable hw hs he, ← List.filter_append]
      simp

/-- the result of inserting all values with `insert_unique` -/
theorem Steps.uniq (hw : StrictWeak (klt E g)) {vs : List V} {es' : List (Elem V)} (hs : KUnique E g es)
    (h : Steps (fun v x y => ∃ r, UniqueIns E g v x r y) vs es es') :
    KUnique E g es' ∧ es.Sublist es' ∧ (∀ v ∈ vs, ∃ x ∈ es', keq E g (E.kov g.kov v) x = true) ∧ (∀ x ∈ es', x ∈ es ∨ x.val ∈ vs) := by
  induction vs generalizing es with
  | nil => cases h; exact ⟨hs, List.Sublist.refl _, by simp, fun x hx => Or.inl hx⟩
  | cons v vs ih =>
    obtain ⟨y, ⟨r, hu⟩, h2⟩ := h
    obtain ⟨i1, i2, i3, i4⟩ := ih (hu.unique hw hs) h2
    have hsub : es.Sublist y ∧ (∃ x ∈ y, keq E g (E.kov g.kov v) x = true) ∧ ∀ x ∈ y, x ∈ es ∨ x.val = v := by
      rcases hu with ⟨rfl, x, hx, hk, _⟩ | ⟨_, e, he, _, rfl⟩
      · exact ⟨List.Sublist.refl _, ⟨x, hx, hk⟩, fun x hx => Or.inl hx⟩
      · obtain ⟨X, Y, e1, e2⟩ := insAfter_perm (e := e) (v := v) hw (hs.sorted hw)
        rw [e2, e1]
        refine ⟨List.Sublist.append (List.Sublist.refl _) (List.sublist_cons_self _ _), ⟨e, by simp, ?_⟩, fun x hx => ?_⟩
        · simp [keq, equivB, ek, he, hw.irrefl]
        · simp only [List.mem_append, List.mem_cons] at hx ⊢
          rcases hx with hx | rfl | hx
          · exact Or.inl (Or.inl hx)
          · exact Or.inr he
          · exact Or.inl (Or.inr hx)
    refine ⟨i1, hsub.1.trans i2, fun w hw' => ?_, fun x hx => ?_⟩
    · rcases List.mem_cons.1 hw' with rfl | hw'
      · obtain ⟨x, hx, hk⟩ := hsub.2.1
        exact ⟨x, i2.subset hx, hk⟩
      · exact i3 w hw'
    · rcases i4 x hx with h | h
      · rcases hsub.2.2 x h with h | h
        · exact Or.inl h
        · exact Or.inr (by simp [h])
      · exact Or.inr (List.mem_cons_of_mem _ h)

/-! ### create, destroy, swap -/

theorem create_spec {P : HProp V} {Q : β → HProp V} {k : Addr → M V β} (hg : g.kt ≠ 0 ∧ g.vt ≠ 0 ∧ g.kov ≠ 0 ∧ g.cmp ≠ 0)
    (hfail : ¬ nf → Triple nf P (k 0) Q)
    (hok : ∀ a h, a ≠ 0 → Triple nf (isTree a h g [] ∗ P) (k a) Q) :
    Triple nf P (create g.kt g.vt g.mt g.kov g.cmp >>= k) Q := by
  unfold create
  rw [if_neg (by simp [hg])]
  simp only [bind_assoc]
  apply mallocS7
  · intro hn
    simp only [↓reduceIte, pure_bind]
    exact hfail hn
  intro a x1 x2 x3 x4 x5 x6 x7 ha
  simp only [ha, ↓reduceIte, bind_assoc]
  apply mallocS5
  · intro hn
    steps
    simp only [↓reduceIte, bind_assoc]
    call (free7 (a := a))
    intro _
    rw [emp_sep, pure_bind]
    exact hfail hn
  intro h y1 y2 y3 y4 y5 hh
  steps
  simp only [hh, ↓reduceIte, bind_assoc]
  steps
  refine Triple.pre ?_ (hok a h ha)
  refine ent_trans (Q := isShape a h g leaf ∗ P) ?_ (sep_mono (shape_tree rfl ⟨rfl, 0, rfl⟩ hg.2.1) (ent_refl P))
  simp only [isShape, hdr, consts, toList_leaf, List.length_nil, CList.firstN_nil, CList.lastN_nil, rootA_leaf, tr_leaf]
  cancel

/-- what `c_tree_destroy` leaves behind: the header node -/
def leaked (h : Addr) : HProp V := blk h 5 ∗ fld h 1 0 ∗ fld h 2 0 ∗ fld h 3 h ∗ fld h 4 h ∗ fld h 5 0

theorem destroy_spec : Triple nf (isTree a h g es ∗ F) (destroy a) (fun _ => leaked h ∗ F) := by
  unfold destroy
  refine Triple.bind clear_spec fun _ => ?_
  refine with_tree fun t h1 h2 h3 => ?_
  have ht : t = leaf := by
    cases t with
    | leaf => rfl
    | node c l e r => simp at h1
  subst ht
  simp only [isShape, hdr, consts, toList_leaf, List.length_nil, CList.firstN_nil, CList.lastN_nil, rootA_leaf, tr_leaf]
  rw [← bind_pure (free a)]
  call (free7 (a := a))
  intro _
  apply Triple.ret
  unfold leaked
  cancel

theorem swap_spec {b h' : Nat} {g' : Cfg} {es' : List (Elem V)} :
    Triple nf (isTree a h g es ∗ isTree b h' g' es' ∗ F) (swap a b) (fun _ => isTree a h' g' es' ∗ isTree b h g es ∗ F) := by
  refine with_tree fun t h1 h2 h3 => ?_
  refine with_facts fun hf => ?_
  rw [sep_left_comm]
  refine with_tree fun t' h1' h2' h3' => ?_
  refine with_facts fun hf' => ?_
  unfold swap
  rw [if_neg (by simp [hf.a0, hf'.a0])]
  refine Triple.post (Q' := fun _ => isShape a h' g' t' ∗ isShape b h g t ∗ F) ?_ fun _ => sep_mono (shape_tree h1' h2' h3') (sep_mono (shape_tree h1 h2 h3) (ent_refl F))
  simp only [isShape, hdr, consts]
  steps
  try apply Triple.ret
  cancel

theorem swap_self : Triple nf (isTree a h g es ∗ F) (swap a a) (fun _ => isTree a h g es ∗ F) := by
  refine with_tree fun t h1 h2 h3 => ?_
  refine with_facts fun hf => ?_
  unfold swap
  rw [if_neg (by simp [hf.a0])]
  refine Triple.post (Q' := fun _ => isShape a h g t ∗ F) ?_ fun _ => sep_mono (shape_tree h1 h2 h3) (ent_refl F)
  simp only [isShape, hdr, consts]
  steps
  try apply Triple.ret
  cancel

/-! ### c_tree_equal_range -/

/-- with iterator structs supplied by the caller -/
theorem equalRangeF_spec {N : Nat} (hN : 2 * Nat.log2 (es.length + 1) + 1 ≤ N) {key lower upper : Loc} {v : V} {l u x y : Nat} (hw : StrictWeak (klt E g)) (hs : KSorted E g es) (hk0 : key.1 ≠ 0)
    (hv : Reads (isTree a h g es ∗ F) key v) (hl : l ≠ 0) (hu : u ≠ 0) :
    Triple nf (isTree a h g es ∗ pts lower (.num l) ∗ pts upper (.num u) ∗ fld l 2 x ∗ fld u 2 y ∗ F) (equalRangeF E N a key lower upper)
      (fun _ => isTree a h g es ∗ pts lower (.num l) ∗ pts upper (.num u) ∗ fld l 2 (firstN (es.filter fun e => !klt E g (ek E g e) v) h) ∗
        fld u 2 (firstN (es.filter fun e => klt E g v (ek E g e)) h) ∗ F) := by
  have hv2 : Reads (isTree a h g es ∗ pts lower (.num l) ∗ pts upper (.num u) ∗ fld l 2 x ∗ fld u 2 y ∗ F) key v := by
    have := hv.left (Q := pts lower (.num l) ∗ pts upper (.num u) ∗ fld l 2 x ∗ fld u 2 y)
    rw [show (isTree a h g es ∗ pts lower (.num l) ∗ pts upper (.num u) ∗ fld l 2 x ∗ fld u 2 y ∗ F) = ((isTree a h g es ∗ F) ∗ pts lower (.num l) ∗ pts upper (.num u) ∗ fld l 2 x ∗ fld u 2 y) by ac_rfl]
    exact this
  refine with_treeN hN fun t h1 h2 h3 hH => ?_
  refine with_facts fun hf => ?_
  have hv3 := reads_shape h1 h2 h3 hv2
  refine Triple.fact (p := lower.1 ≠ 0) (fun m hm => pts_ne_zero (v := .num l) (R := _) ((show _ ⊢ₛ _ by cancel) _ hm)) fun hl0 => ?_
  refine Triple.fact (p := upper.1 ≠ 0) (fun m hm => pts_ne_zero (v := .num u) (R := _) ((show _ ⊢ₛ _ by cancel) _ hm)) fun hu0 => ?_
  unfold equalRangeF
  rw [if_neg (by simp [hf.a0, hk0, hl0, hu0])]
  have hs' := hs
  rw [← h1] at hs'
  step
  rw [if_neg hl, pure_bind]
  step
  rw [if_neg hu, pure_bind]
  step
  step
  rw [if_neg (by simp [hl, hu])]
  refine Triple.pre (P' := isShape a h g t ∗ pts lower (.num l) ∗ pts upper (.num u) ∗ fld l 2 x ∗ fld u 2 y ∗ F) (by cancel) ?_
  refine lowerBoundF_cps hH hw hs' h3 hk0 hv3 ?_
  refine upperBoundF_cps hH hw hs' h3 hk0 hv3 ?_
  steps
  rw [h1]
  apply Triple.ret
  refine ent_trans (Q := isShape a h g t ∗ pts lower (.num l) ∗ pts upper (.num u) ∗ fld l 2 (firstN (es.filter fun e => !klt E g (ek E g e) v) h) ∗
        fld u 2 (firstN (es.filter fun e => klt E g v (ek E g e)) h) ∗ F) (by cancel) ?_
  exact sep_mono (shape_tree h1 h2 h3) (ent_refl _)
theorem equalRange_spec {key lower upper : Loc} {v : V} {l u x y : Nat} (hw : StrictWeak (klt E g)) (hs : KSorted E g es) (hk0 : key.1 ≠ 0)
    (hv : Reads (isTree a h g es ∗ F) key v) (hl : l ≠ 0) (hu : u ≠ 0) :
    Triple nf (isTree a h g es ∗ pts lower (.num l) ∗ pts upper (.num u) ∗ fld l 2 x ∗ fld u 2 y ∗ F) (equalRange E a key lower upper)
      (fun _ => isTree a h g es ∗ pts lower (.num l) ∗ pts upper (.num u) ∗ fld l 2 (firstN (es.filter fun e => !klt E g (ek E g e) v) h) ∗
        fld u 2 (firstN (es.filter fun e => klt E g v (ek E g e)) h) ∗ F) :=
  Triple.le (equalRangeF_le E (2 * Nat.log2 (es.length + 1) + 1) a key lower upper) (equalRangeF_spec (Nat.le_refl _) hw hs hk0 hv hl hu)

end CC.Tree
