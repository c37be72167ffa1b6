import Verif.List.Time3
namespace CC.CList
open CC.Tac
variable {V β : Type} {E : Types V} {nf : Prop} {l s o s2 : Addr} {ty t2 : Nat} {xs ys : List (Elem V)} {k : Nat} {comp : V → V → Bool}

theorem createCounters_empty {k : Nat} {P : HProp V} {Q : β → HProp V} {kk : List Addr × Bool → M V β} (hty : ty ≠ 0)
    (hfail : ∀ T n, T.length + n = k → (∀ t ∈ T, t.ys = []) → ¬ nf → Triple nf (bag ty T ∗ P) (kk (T.map Ent.c ++ List.replicate n 0, false)) Q)
    (hok : ∀ T, T.length = k → (∀ t ∈ T, t.ys = []) → Triple nf (bag ty T ∗ P) (kk (T.map Ent.c, true)) Q) :
    Triple nf P (createCounters ty k >>= kk) Q := by
  induction k generalizing P kk with
  | zero =>
    rw [createCounters]
    step
    have := hok [] rfl (by simp)
    simpa [bag] using this
  | succ k ih =>
    rw [createCounters]
    step
    apply create_spec hty
    · intro h
      rw [if_pos rfl]
      step
      have := hfail [] (k+1) (by simp) (by simp) h
      simpa [bag] using this
    · intro c s hc
      rw [if_neg hc]
      step
      apply ih
      · intro T n hl he h
        steps
        have := hfail (⟨c, s, []⟩ :: T) n (by simp; omega) (by
          intro t ht
          rcases List.mem_cons.1 ht with rfl | ht
          · rfl
          · exact he t ht) h
        refine Triple.pre ?_ this
        rw [bag]
        cancel
      · intro T hT hTe
        steps
        have := hok (⟨c, s, []⟩ :: T) (by simp [hT]) (by
          intro t ht
          rcases List.mem_cons.1 ht with rfl | ht
          · rfl
          · exact hTe t ht)
        refine Triple.pre ?_ this
        rw [bag]
        cancel

theorem createCounters_cost {n : Nat} : Cost (createCounters ty n : M V (List Addr × Bool)) (9 * n) := by
  induction n with
  | zero => rw [createCounters]; exact Cost.pure _
  | succ n ih =>
    rw [createCounters]
    refine (Cost.bind (c := 9) (d := 9 * n) (by cost) fun c => ?_).mono (by omega)
    split
    · exact (Cost.pure _).mono (by omega)
    · exact (Cost.bind (d := 0) ih fun _ => Cost.pure _).mono (by omega)

theorem destroy_null_cost : Cost (destroy 0 : M V Unit) 0 := by unfold destroy; exact Cost.pure _

theorem destroyCounters_time {T : List (Ent V)} {n : Nat} (hT : ∀ t ∈ T, t.ys = []) (hk : 12 * T.length ≤ k) :
    Triple nf (bag ty T) (within k (destroyCounters (T.map Ent.c ++ List.replicate n 0))) (fun _ => emp) := by
  induction T generalizing k with
  | nil =>
    simp only [List.map_nil, List.nil_append, bag]
    clear hT hk
    induction n generalizing k with
    | zero => rw [List.replicate_zero, destroyCounters]; retP; cancel
    | succ n ih =>
      rw [List.replicate_succ, destroyCounters]
      refine Triple.le (within_bind destroy_null_cost (Nat.zero_le _)) ?_
      call destroy_null
      intro _
      rw [Nat.sub_zero]
      simpa using ih
  | cons t T ih =>
    simp only [List.length_cons] at hk
    rw [List.map_cons, List.cons_append, destroyCounters, bag]
    payW 12
    call (destroy_time (l := t.c) (xs := t.ys) (by rw [hT t (by simp)]; simp))
    intro _
    simpa using ih (fun t ht => hT t (by simp [ht])) (k := k - 12) (by omega)

theorem sortBy_time (hty : ty ≠ 0) (hlen : xs.length < 2 ^ 64) {d : Nat} (hd2 : xs.length < 2 ^ d) (hk : (51 * d + 34) * xs.length + d * (17 * xs.length + 23) + 1384 ≤ k) :
    Triple nf (isList l s ty xs) (within k (sortBy l (some comp)))
      (fun _ => ∃ₛ s' ys, ⌜Rearr comp xs ys ∧
          ((StrictWeak comp → Sorted (ltE comp) ys) ∨ (¬ nf ∧ ys = xs))⌝ ∗ isList l s' ty ys) := by
  rw [Nat.add_mul, Nat.mul_assoc] at hk
  have hz : d * xs.length = xs.length * d := Nat.mul_comm ..
  generalize hg : d * (17 * xs.length + 23) = g at hk
  generalize hm : xs.length * d = m at hk hz
  rw [hz] at hk
  unfold sortBy
  callP empty_spec
  intro r
  xsub
  iteP
  · intro he
    have : xs = [] := by simpa using he
    subst this
    retP
    xexists s, []
    cancel
    exact ⟨Rearr.refl _, Or.inl fun _ => List.Pairwise.nil⟩
  intro he
  have hxs : xs ≠ [] := by simpa using he
  payW (xs.length + 3)
  call (size_time (Nat.le_refl _))
  intro r
  xsub
  iteP
  · intro h1
    obtain ⟨x, rfl⟩ := List.length_eq_one_iff.1 h1
    retP
    xexists s, [x]
    cancel
    exact ⟨Rearr.refl _, Or.inl fun _ => List.pairwise_singleton _ _⟩
  intro h1
  dsimp only
  callP ltype_spec
  intro r
  xsub
  pay
  apply create_spec hty
  · intro h
    rw [if_pos rfl]
    retP
    xexists s, xs
    cancel
    exact ⟨Rearr.refl _, Or.inr ⟨h, rfl⟩⟩
  intro cc sc hcc
  rw [if_neg hcc]
  callP (ltype_spec (l := l))
  intro r
  xsub
  refine Triple.le (within_bind createCounters_cost (by omega)) ?_
  apply createCounters_empty hty
  · intro T n hTn hTe h
    dsimp only
    rw [if_neg (by simp)]
    payW 768
    call (destroyCounters_time hTe (by omega))
    intro _
    call (destroy_time (l := cc) (xs := []) (by simp; omega))
    intro _
    xexists s, xs
    cancel
    exact ⟨Rearr.refl _, Or.inr ⟨h, rfl⟩⟩
  intro T hTl hTe
  dsimp only
  rw [if_pos rfl]
  have hl := sortLoop_time (nf := nf) (comp := comp) (ty := ty) (l := l) (s := s) (cc := cc) (sc := sc) (fill := 0) (T := T) (L := xs) hty
    (GoodFrom.empties hTe) (by omega) (by rw [rflat_empty hTe, hTl]; simpa using hlen)
    (d := d) (by rw [rflat_empty hTe]; simpa using hd2) (Or.inl rfl) (k := 33 * xs.length + 51 * (xs.length * d) + 3) (by rw [pot_empty hTe]; omega)
  payW (33 * xs.length + 51 * (xs.length * d) + 3)
  call hl
  intro fill
  xintro T' sc' ⟨h1, h2, h3, _, h5, h6, h7⟩
  rw [rflat_empty hTe, List.nil_append] at h6
  have hfill := h5 hxs
  cases T' with
  | nil => exfalso; simp at h3; omega
  | cons t T' =>
    rw [← h1]
    have hd3 : fill ≤ d := by
      have := h6.1.length_eq
      rcases h7 with h | h
      · omega
      · have := (Nat.pow_lt_pow_iff_right (show 1 < 2 by omega)).1 (show 2 ^ (fill - 1) < 2 ^ d by omega)
        omega
    have hf := sortFinal_time (nf := nf) (comp := comp) (ty := ty) (T1 := []) (t := t) (T2 := T') (fill := fill) hty
      (by simp) h2.1.1.2 (by simpa using h2.2) (by simp; omega) (by simp at h3 ⊢; omega) (n := xs.length) (w := 17 * xs.length + 23) (k := g)
      (by have := h6.1.length_eq; rw [rflat] at this; omega) (Nat.le_refl _)
      (by rw [← hg]; exact Nat.mul_le_mul_right _ (by simp only [List.length_nil]; omega))
    simp only [List.nil_append, List.length_nil, Nat.zero_add] at hf
    payW g
    call hf
    intro _
    xintro T1 u T2 ⟨g1, g2, g3, g4, g5, g6⟩
    rw [← g1, show fill - 1 = T1.length by omega, at_append, bag_split]
    simp only [pure_bind]
    callP (swap_spec (l := l) (l2 := u.c))
    intro _
    have hT1 : T1.length + T2.length + 1 = 64 := by
      have e1 := congrArg List.length h1
      have e2 := congrArg List.length g1
      simp at e1 e2
      omega
    have hd := destroyCounters_time (k := 768) (nf := nf) (ty := ty) (T := T1 ++ ⟨u.c, s, []⟩ :: T2) (n := 0) (by
      intro t' ht'
      rcases List.mem_append.1 ht' with h | h
      · exact g3 t' h
      · rcases List.mem_cons.1 h with rfl | h
        · rfl
        · exact g4 t' h) (by simp only [List.length_append, List.length_cons]; omega)
    simp only [List.replicate_zero, List.append_nil, bag_split] at hd
    rw [show (T1 ++ u :: T2).map Ent.c = (T1 ++ (⟨u.c, s, []⟩ : Ent V) :: T2).map Ent.c by simp]
    payW 768
    call hd
    intro _
    call (destroy_time (l := cc) (xs := []) (by simp; omega))
    intro _
    xexists u.s, u.ys
    cancel
    exact ⟨h6.trans g6, Or.inl g5⟩

theorem sort_time (hty : ty ≠ 0) (hlen : xs.length < 2 ^ 64) {d : Nat} (hd2 : xs.length < 2 ^ d) (hk : (51 * d + 35) * xs.length + d * (17 * xs.length + 23) + 1391 ≤ k) :
    Triple nf (isList l s ty xs) (within k (sort E l))
      (fun _ => ∃ₛ s' ys, ⌜Rearr (E ty).less xs ys ∧
          ((StrictWeak (E ty).less → Sorted (ltE (E ty).less) ys) ∨ (¬ nf ∧ ys = xs))⌝ ∗ isList l s' ty ys) := by
  have hk2 : xs.length + (51 * d + 34) * xs.length = (51 * d + 35) * xs.length := by
    have e : 51 * d + 35 = 1 + (51 * d + 34) := by omega
    rw [e, Nat.add_mul 1, Nat.one_mul]
  rw [← hk2] at hk
  unfold sort
  callP empty_spec
  intro r
  xsub
  iteP
  · intro he
    have : xs = [] := by simpa using he
    subst this
    retP
    xexists s, []
    cancel
    exact ⟨Rearr.refl _, Or.inl fun _ => List.Pairwise.nil⟩
  intro he
  payW (xs.length + 3)
  call (size_time (Nat.le_refl _))
  intro r
  xsub
  iteP
  · intro h1
    obtain ⟨x, rfl⟩ := List.length_eq_one_iff.1 h1
    retP
    xexists s, [x]
    cancel
    exact ⟨Rearr.refl _, Or.inl fun _ => List.pairwise_singleton _ _⟩
  intro h1
  callP ltype_spec
  intro r
  xsub
  refine Triple.post (sortBy_time hty hlen hd2 (by omega)) ?_
  intro _
  xintro s' ys h
  xexists s', ys
  cancel

theorem merge_time (hty : isSame ty t2 = true) (hk : 17 * (xs.length + ys.length) + 24 ≤ k) :
    Triple nf (isList l s ty xs ∗ isList o s2 t2 ys) (within k (merge E l o))
      (fun _ => isList l s ty (mergeL (ltE (E ty).less) xs ys) ∗ isList o s2 t2 []) := by
  apply list_facts (l := l) (R := isList o s2 t2 ys) (by cancel); intro hl _ _ _
  unfold merge
  rw [if_neg hl]
  callP (ltype_spec (l := l))
  intro r
  xsub
  exact mergeBy_time hty (by omega)

theorem unique_time (hk : 19 * xs.length + 11 ≤ k) : Triple nf (isList l s ty xs) (within k (unique E l))
      (fun _ => isList l s ty (uniqBy (fun a b => (E ty).equal a.val b.val) xs)) := by
  apply list_facts0; intro hl hs0 hs hnd
  unfold unique
  rw [if_neg hl]
  callP ltype_spec
  intro r
  xsub
  exact uniqueIf_time (by omega)

theorem copy_time (hty : ty ≠ 0) (hk : 22 * xs.length + 13 ≤ k) :
    Triple nf (isList l s ty xs) (within k (copy E l))
      (fun r => isList l s ty xs ∗ ∃ₛ s' N, ⌜(r = 0 → ¬ nf) ∧ (vals N).Sublist (vals xs) ∧ (nf → vals N = vals xs)⌝ ∗
        if r = 0 then emp else isList r s' ty N) := by
  apply list_facts0; intro hl _ _ _
  unfold copy
  rw [if_neg hl]
  callP ltype_spec
  intro r
  xsub
  pay
  apply create_spec hty
  · intro h
    rw [if_pos rfl]
    retP
    simp only [if_true, sep_emp]
    xexists 0, []
    cancel
    simp [h]
  · intro l' s' hl'
    rw [if_neg hl']
    callP begin_spec (l := l)
    intro r
    xsub
    payW (22 * xs.length + 1)
    refine Triple.bind_frame (copyLoop_time (E := E) (X := []) (Y := xs) (o := l) (xs := []) (l := l') (s := s') (ty := ty) (Nat.le_refl _)) (R := emp)
      (by rw [List.nil_append]; cancel) ?_
    intro _
    xintro N hN
    retP
    simp only [if_neg hl', List.nil_append]
    xexists s', N
    cancel
    exact ⟨fun h => absurd h hl', hN⟩

theorem assign_time {o s2 : Addr} {t2 : Nat} {ys : List (Elem V)} (hk : 13 * xs.length + 22 * ys.length + 11 ≤ k) :
    Triple nf (isList l s ty xs ∗ isList o s2 t2 ys) (within k (assign E l o))
      (fun r => ⌜r = l⌝ ∗ isList o s2 t2 ys ∗ ∃ₛ N, ⌜(vals N).Sublist (vals ys) ∧ (nf → vals N = vals ys)⌝ ∗
        isList l s t2 N) := by
  apply list_facts (R := isList o s2 t2 ys) (by cancel); intro hl _ _ _
  apply list_facts (l := o) (R := isList l s ty xs) (by cancel); intro hl2 _ _ _
  apply Triple.fact (p := l ≠ o)
  · intro h hh
    apply blk_ne (h := h) (a := l) (b := o) (n := 2) (m := 2) (P := isList l s ty xs ∗ isList o s2 t2 ys)
      (R := (fld l 1 s ∗ fld l 2 ty ∗ blk s 3 ∗ fld s 3 0 ∗ path s (nodes xs ++ [s]) ∗ elts xs) ∗
        (fld o 1 s2 ∗ fld o 2 t2 ∗ blk s2 3 ∗ fld s2 3 0 ∗ path s2 (nodes ys ++ [s2]) ∗ elts ys)) ?_ hh
    unfold isList hdr; ac_rfl
  intro hne
  unfold assign
  rw [if_neg (by simp [hl, hl2]), if_pos hne]
  payW (13 * xs.length + 6)
  call clear_time (l := l) (Nat.le_refl _)
  intro _
  callP (ltype_spec (l := o))
  intro r
  xsub
  rw [show isList l s ty ([] : List (Elem V)) = ((blk l 2 ∗ fld l 1 s ∗ fld l 2 ty ∗ blk s 3 ∗ fld s 3 0) ∗
    path s (nodes ([] : List (Elem V)) ++ [s]) ∗ elts []) from rfl]
  stepsP
  refine Triple.pre (P' := isList l s t2 [] ∗ isList o s2 t2 ys) (by unfold isList hdr; cancel) ?_
  callP begin_spec (l := o)
  intro r
  xsub
  payW (22 * ys.length + 1)
  refine Triple.bind_frame (copyLoop_time (E := E) (X := []) (Y := ys) (o := o) (xs := []) (l := l) (s := s) (ty := t2) (Nat.le_refl _)) (R := emp)
    (by rw [List.nil_append]; cancel) ?_
  intro _
  xintro N hN
  retP
  rw [List.nil_append, List.nil_append]
  xexists N
  cancel

theorem createFromLoop_cost {v : Loc} {n : Nat} : Cost (createFromLoop E l v n) (19 * n) := by
  induction n generalizing v with
  | zero => rw [createFromLoop]; exact Cost.pure _
  | succ n ih =>
    rw [createFromLoop]
    exact (Cost.bind (c := 19) (d := 19 * n) (by cost) fun c => ih).mono (by omega)

theorem createFrom_cost {v : Loc} {n : Nat} : Cost (createFrom E ty v n) (19 * n + 9) := by
  unfold createFrom
  split
  · exact (Cost.pure _).mono (by omega)
  · refine (Cost.bind (c := 9) (d := 19 * n) (by cost) fun c => ?_).mono (by omega)
    split
    · exact (Cost.pure _).mono (by omega)
    · exact (Cost.bind (d := 0) createFromLoop_cost fun _ => Cost.pure _).mono (by omega)

end CC.CList
