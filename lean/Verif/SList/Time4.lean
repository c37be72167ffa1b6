import Verif.SList.Time3
namespace CC.SList
open CC.Tac
open CC.CList (Elem nodes vals firstN lastN firstN_nil firstN_cons lastN_nil lastN_cons lastN_append_cons firstN_append
  blk_ne ArgVal ltE vals_mergeL Rearr)
variable {V β : Type} {E : Types V} {nf : Prop} {l a s o a2 s2 : Addr} {ty t2 : Nat} {xs ys : List (Elem V)} {k : Nat} {comp : V → V → Bool}

theorem createCounters_empty {k : Nat} {P : HProp V} {Q : β → HProp V} {kk : List Addr × Bool → M V β} (hty : ty ≠ 0)
    (hfail : ∀ T n, T.length + n = k → (∀ t ∈ T, t.ys = []) → ¬ nf → Triple nf (bag ty T ∗ P) (kk (T.map Ent.c ++ List.replicate n 0, false)) Q)
    (hok : ∀ T, T.length = k → (∀ t ∈ T, t.ys = []) → Triple nf (bag ty T ∗ P) (kk (T.map Ent.c, true)) Q) :
    Triple nf P (createCounters ty k >>= kk) Q := by
  induction k generalizing P kk with
  | zero =>
    rw [createCounters]
    step
    have := hok [] rfl (by simp)
    simpa [bag] using this
  | succ k ih =>
    rw [createCounters]
    step
    apply create_spec hty
    · intro h
      rw [if_pos rfl]
      step
      have := hfail [] (k+1) (by simp) (by simp) h
      simpa [bag] using this
    · intro c a s hc
      rw [if_neg hc]
      step
      apply ih
      · intro T n hl he h
        steps
        have := hfail (⟨c, a, s, []⟩ :: T) n (by simp; omega) (by
          intro t ht
          rcases List.mem_cons.1 ht with rfl | ht
          · rfl
          · exact he t ht) h
        refine Triple.pre ?_ this
        rw [bag]
        cancel
      · intro T hT hTe
        steps
        have := hok (⟨c, a, s, []⟩ :: T) (by simp [hT]) (by
          intro t ht
          rcases List.mem_cons.1 ht with rfl | ht
          · rfl
          · exact hTe t ht)
        refine Triple.pre ?_ this
        rw [bag]
        cancel

theorem createCounters_cost {n : Nat} : Cost (createCounters ty n : M V (List Addr × Bool)) (18 * n) := by
  induction n with
  | zero => rw [createCounters]; exact Cost.pure _
  | succ n ih =>
    rw [createCounters]
    refine (Cost.bind (c := 18) (d := 18 * n) (by cost) fun c => ?_).mono (by omega)
    split
    · exact (Cost.pure _).mono (by omega)
    · exact (Cost.bind (d := 0) ih fun _ => Cost.pure _).mono (by omega)

theorem destroy_null_cost : Cost (destroy 0 : M V Unit) 0 := by unfold destroy; exact Cost.pure _

theorem destroyCounters_time {T : List (Ent V)} {n : Nat} (hT : ∀ t ∈ T, t.ys = []) (hk : 17 * T.length ≤ k) :
    Triple nf (bag ty T) (within k (destroyCounters (T.map Ent.c ++ List.replicate n 0))) (fun _ => emp) := by
  induction T generalizing k with
  | nil =>
    simp only [List.map_nil, List.nil_append, bag]
    clear hT hk
    induction n generalizing k with
    | zero => rw [List.replicate_zero, destroyCounters]; retP; cancel
    | succ n ih =>
      rw [List.replicate_succ, destroyCounters]
      refine Triple.le (within_bind destroy_null_cost (Nat.zero_le _)) ?_
      call destroy_null
      intro _
      rw [Nat.sub_zero]
      simpa using ih
  | cons t T ih =>
    simp only [List.length_cons] at hk
    rw [List.map_cons, List.cons_append, destroyCounters, bag]
    payW 17
    call (destroy_time (l := t.c) (xs := t.ys) (by rw [hT t (by simp)]; simp))
    intro _
    simpa using ih (fun t ht => hT t (by simp [ht])) (k := k - 17) (by omega)

theorem sortBy_time (hty : ty ≠ 0) (hlen : xs.length < 2 ^ 64) {d : Nat} (hd2 : xs.length < 2 ^ d) (hk : (51 * d + 33) * xs.length + d * (28 * xs.length + 19) + 2299 ≤ k) :
    Triple nf (isSList l a s ty xs) (within k (sortBy l (some comp)))
      (fun _ => ∃ₛ a' s' ys, ⌜Rearr comp xs ys ∧
          ((StrictWeak comp → Sorted (ltE comp) ys) ∨ (¬ nf ∧ ys = xs))⌝ ∗ isSList l a' s' ty ys) := by
  rw [Nat.add_mul, Nat.mul_assoc] at hk
  have hz : d * xs.length = xs.length * d := Nat.mul_comm ..
  generalize hg : d * (28 * xs.length + 19) = g at hk
  generalize hm : xs.length * d = m at hk hz
  rw [hz] at hk
  unfold sortBy
  callP empty_spec
  intro r
  xsub
  iteP
  · intro he
    have : xs = [] := by simpa using he
    subst this
    retP
    xexists a, s, []
    cancel
    exact ⟨CC.CList.Rearr.refl _, Or.inl fun _ => List.Pairwise.nil⟩
  intro he
  have hxs : xs ≠ [] := by simpa using he
  callP single_spec
  intro r
  xintro hr
  rw [hr hxs]
  iteP
  · intro h1
    obtain ⟨x, rfl⟩ := List.length_eq_one_iff.1 (by simpa using h1)
    retP
    xexists a, s, [x]
    cancel
    exact ⟨CC.CList.Rearr.refl _, Or.inl fun _ => List.pairwise_singleton _ _⟩
  intro h1
  dsimp only
  callP ltype_spec
  intro r
  xsub
  pay
  apply create_spec hty
  · intro h
    rw [if_pos rfl]
    retP
    xexists a, s, xs
    cancel
    exact ⟨CC.CList.Rearr.refl _, Or.inr ⟨h, rfl⟩⟩
  intro cc ac sc hcc
  rw [if_neg hcc]
  callP (ltype_spec (l := l))
  intro r
  xsub
  refine Triple.le (within_bind createCounters_cost (by omega)) ?_
  apply createCounters_empty hty
  · intro T n hTn hTe h
    dsimp only
    rw [if_neg (by simp)]
    payW 1088
    call (destroyCounters_time hTe (by omega))
    intro _
    call (destroy_time (l := cc) (xs := []) (by simp; omega))
    intro _
    xexists a, s, xs
    cancel
    exact ⟨CC.CList.Rearr.refl _, Or.inr ⟨h, rfl⟩⟩
  intro T hTl hTe
  dsimp only
  rw [if_pos rfl]
  have hl := sortLoop_time (nf := nf) (comp := comp) (ty := ty) (l := l) (a := a) (s := s) (cc := cc) (ac := ac) (sc := sc) (fill := 0) (T := T) (L := xs) hty
    (GoodFrom.empties hTe) (by omega) (by rw [rflat_empty hTe, hTl]; simpa using hlen)
    (d := d) (by rw [rflat_empty hTe]; simpa using hd2) (Or.inl rfl) (k := 33 * xs.length + 51 * (xs.length * d) + 3) (by rw [pot_empty hTe]; omega)
  payW (33 * xs.length + 51 * (xs.length * d) + 3)
  call hl
  intro fill
  xintro T' ac' sc' ⟨h1, h2, h3, _, h5, h6, h7⟩
  rw [rflat_empty hTe, List.nil_append] at h6
  have hfill := h5 hxs
  cases T' with
  | nil => exfalso; simp at h3; omega
  | cons t T' =>
    rw [← h1]
    have hd3 : fill ≤ d := by
      have := h6.1.length_eq
      rcases h7 with h | h
      · omega
      · have := (Nat.pow_lt_pow_iff_right (show 1 < 2 by omega)).1 (show 2 ^ (fill - 1) < 2 ^ d by omega)
        omega
    have hf := sortFinal_time (nf := nf) (comp := comp) (ty := ty) (T1 := []) (t := t) (T2 := T') (fill := fill) hty
      (by simp) h2.1.1.2 (by simpa using h2.2) (by simp; omega) (by simp at h3 ⊢; omega) (n := xs.length) (w := 28 * xs.length + 19) (k := g)
      (by have := h6.1.length_eq; rw [rflat] at this; omega) (Nat.le_refl _)
      (by rw [← hg]; exact Nat.mul_le_mul_right _ (by simp only [List.length_nil]; omega))
    simp only [List.nil_append, List.length_nil, Nat.zero_add] at hf
    payW g
    call hf
    intro _
    xintro T1 u T2 ⟨g1, g2, g3, g4, g5, g6⟩
    rw [← g1, show fill - 1 = T1.length by omega, at_append, bag_split]
    simp only [pure_bind]
    callP (swap_spec (l := l) (o := u.c))
    intro _
    have hT1 : T1.length + T2.length + 1 = 64 := by
      have e1 := congrArg List.length h1
      have e2 := congrArg List.length g1
      simp at e1 e2
      omega
    have hd := destroyCounters_time (k := 1088) (nf := nf) (ty := ty) (T := T1 ++ ⟨u.c, a, s, []⟩ :: T2) (n := 0) (by
      intro t' ht'
      rcases List.mem_append.1 ht' with h | h
      · exact g3 t' h
      · rcases List.mem_cons.1 h with rfl | h
        · rfl
        · exact g4 t' h) (by simp only [List.length_append, List.length_cons]; omega)
    simp only [List.replicate_zero, List.append_nil, bag_split] at hd
    rw [show (T1 ++ u :: T2).map Ent.c = (T1 ++ (⟨u.c, a, s, []⟩ : Ent V) :: T2).map Ent.c by simp]
    payW 1088
    call hd
    intro _
    call (destroy_time (l := cc) (xs := []) (by simp; omega))
    intro _
    xexists u.a, u.s, u.ys
    cancel
    exact ⟨h6.trans g6, Or.inl g5⟩

theorem sort_time (hty : ty ≠ 0) (hlen : xs.length < 2 ^ 64) {d : Nat} (hd2 : xs.length < 2 ^ d) (hk : (51 * d + 33) * xs.length + d * (28 * xs.length + 19) + 2300 ≤ k) :
    Triple nf (isSList l a s ty xs) (within k (sort E l))
      (fun _ => ∃ₛ a' s' ys, ⌜Rearr (E ty).less xs ys ∧
          ((StrictWeak (E ty).less → Sorted (ltE (E ty).less) ys) ∨ (¬ nf ∧ ys = xs))⌝ ∗ isSList l a' s' ty ys) := by
  apply list_facts0; intro f
  unfold sort
  rw [if_neg f.l0]
  callP ltype_spec
  intro r
  xsub
  refine Triple.post (sortBy_time hty hlen hd2 (by omega)) ?_
  intro _
  xintro a' s' ys h
  xexists a', s', ys
  cancel

end CC.SList
