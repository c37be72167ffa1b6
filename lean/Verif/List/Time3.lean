import Verif.List.Time2
/-!
# The time `c_list_sort_by` takes (proof layer)

The counter at index `i` holds 0 or 2^i elements; an element at index `i` of a list of less than `2 ^ d` elements takes part in at most `d - i` further merges.
-/
namespace CC.CList
open CC.Tac
variable {V β : Type} {E : Types V} {nf : Prop} {l s o s2 : Addr} {ty t2 : Nat} {xs ys : List (Elem V)} {k : Nat} {comp : V → V → Bool}

/-- the memory accesses of the inner loop -/
def carryCost : List (Ent V) → Nat → Nat
  | [], _ => 3
  | t :: T, i => if t.ys.isEmpty then 3 else 51 * 2 ^ (i + 1) + carryCost T (i + 1)

/-- what the counters may still cost -/
def pot (d : Nat) : Nat → List (Ent V) → Nat
  | _, [] => 0
  | i, t :: T => 51 * (t.ys.length * (d - i)) + pot d (i + 1) T

theorem pot_append {d i : Nat} (T1 T2 : List (Ent V)) : pot d i (T1 ++ T2) = pot d i T1 + pot d (i + T1.length) T2 := by
  induction T1 generalizing i with
  | nil => simp [pot]
  | cons t T ih =>
    simp only [List.cons_append, pot, ih, List.length_cons]
    rw [show i + 1 + T.length = i + (T.length + 1) by omega]
    omega

theorem pot_empty {d i : Nat} {T : List (Ent V)} (h : ∀ t ∈ T, t.ys = []) : pot d i T = 0 := by
  induction T generalizing i with
  | nil => rfl
  | cons t T ih =>
    rw [pot, ih fun t ht => h t (by simp [ht]), h t (by simp)]
    simp

theorem carryCost_stop {T : List (Ent V)} {i : Nat} (h : ∀ t, T.head? = some t → t.ys = []) : carryCost T i = 3 := by
  cases T with
  | nil => rfl
  | cons t T => rw [carryCost, h t rfl]; rfl

theorem sortCarry_time {cc sc fill : Nat} {T1 T2 : List (Ent V)} {z : List (Elem V)} (hty : ty ≠ 0)
    (hT1 : ∀ t ∈ T1, t.ys = []) (hT2 : GoodFrom comp fill T1.length T2) (hz : z.length = 2 ^ T1.length)
    (hzs : StrictWeak comp → Sorted (ltE comp) z) (hf1 : T1.length ≤ fill) (hf2 : fill ≤ T1.length + T2.length)
    {d : Nat} (hd : (rflat T2 ++ z).length < 2 ^ d) (hk : carryCost T2 T1.length ≤ k) :
    Triple nf (bag ty (T1 ++ T2) ∗ isList cc sc ty z) (within k (sortCarry comp cc ((T1 ++ T2).map Ent.c) fill T1.length))
      (fun r => ∃ₛ T1' T2' sc' z', ⌜(r = T1'.length ∧ (T1' ++ T2').map Ent.c = (T1 ++ T2).map Ent.c ∧
          (∀ t ∈ T1', t.ys = []) ∧ GoodFrom comp fill T1'.length T2' ∧ (∀ t, T2'.head? = some t → t.ys = []) ∧
          z'.length = 2 ^ T1'.length ∧ (StrictWeak comp → Sorted (ltE comp) z') ∧ T1'.length ≤ fill ∧
          Rearr comp (rflat T2 ++ z) (rflat T2' ++ z') ∧
          carryCost T2 T1.length + (pot d T1'.length T2' + 51 * (z'.length * (d - T1'.length))) ≤ 3 + (pot d T1.length T2 + 51 * (z.length * (d - T1.length))))⌝ ∗
        bag ty (T1' ++ T2') ∗ isList cc sc' ty z') := by
  induction T2 generalizing T1 sc z k with
  | nil =>
    rw [sortCarry, if_neg (by simp at hf2; omega)]
    retP
    xexists T1, [], sc, z
    cancel
    refine ⟨rfl, rfl, hT1, trivial, by simp, hz, hzs, hf1, Rearr.refl _, by rw [carryCost_stop (by simp)]; omega⟩
  | cons t T2 ih =>
    rw [sortCarry]
    iteP
    · intro hi
      rw [at_append, bag_split]
      have h3 : 3 ≤ k := by
        rw [carryCost] at hk
        split at hk
        · exact hk
        · have := Nat.pow_pos (n := T1.length + 1) (show 0 < 2 by omega); omega
      simp only [pure_bind]
      callP (empty_spec (l := t.c))
      intro r
      xsub
      iteP
      · intro he
        have hte : t.ys = [] := by simpa using he
        have hh : ∀ t', (t :: T2).head? = some t' → t'.ys = [] := by
          intro t' ht'
          simp only [List.head?_cons, Option.some.injEq] at ht'
          subst ht'; exact hte
        retP
        xexists T1, t :: T2, sc, z
        rw [bag_split]
        cancel
        exact ⟨rfl, rfl, hT1, hT2, hh, hz, hzs, hf1, Rearr.refl _, by rw [carryCost_stop hh]; omega⟩
      · intro he
        have hlen : t.ys.length = 2 ^ T1.length := by
          rcases hT2.1.1.1 with h | h
          · rw [h] at he; simp at he
          · exact h
        have hp := Nat.pow_pos (n := T1.length) (show 0 < 2 by omega)
        have hc : carryCost (t :: T2) T1.length = 51 * 2 ^ (T1.length + 1) + carryCost T2 (T1.length + 1) := by
          rw [carryCost, if_neg (by simpa using he)]
        have hsucc : 2 ^ (T1.length + 1) = 2 ^ T1.length * 2 := Nat.pow_succ ..
        have hml : (mergeL (ltE comp) t.ys z).length = 2 ^ (T1.length + 1) := by rw [mergeL_length, hlen, hz]; omega
        rw [hc] at hk
        payW (17 * (t.ys.length + z.length) + 23)
        call (mergeBy_time (l := t.c) (o := cc) (comp := comp) (ty := ty) (t2 := ty) (by simp [isSame, hty]) (Nat.le_refl _))
        intro _
        callP (swap_spec (l := cc) (l2 := t.c))
        intro _
        have ih' := ih (T1 := T1 ++ [⟨t.c, sc, []⟩]) (sc := t.s) (z := mergeL (ltE comp) t.ys z)
          (k := k - 3 - (17 * (t.ys.length + z.length) + 23) - 8)
          (by
            intro t' ht'
            rcases List.mem_append.1 ht' with h | h
            · exact hT1 t' h
            · simp at h; simp [h])
          (by simpa using hT2.2)
          (by rw [hml]; simp)
          (fun h => mergeL_sorted (h.comap Elem.val) (hT2.1.1.2 h) (hzs h))
          (by simp; omega) (by simp at hf2 ⊢; omega)
          (by
            rw [rflat] at hd
            simp only [List.length_append, mergeL_length] at hd ⊢
            omega)
          (by simp only [List.length_append, List.length_singleton]; omega)
        rw [show (T1 ++ t :: T2).map Ent.c = (T1 ++ [(⟨t.c, sc, []⟩ : Ent V)] ++ T2).map Ent.c by simp,
          show T1.length + 1 = (T1 ++ [(⟨t.c, sc, []⟩ : Ent V)]).length by simp]
        refine Triple.call_frame ih' (R := emp) ?_ ?_
        · rw [List.append_assoc, List.singleton_append, bag_split]
          cancel
        · intro r
          xintro T1' T2' sc' z' ⟨h1, h2, h3, h4, h5, h6, h7, h8, h9, h10⟩
          xexists T1', T2', sc', z'
          cancel
          refine ⟨h1, h2, h3, h4, h5, h6, h7, h8, ?_, ?_⟩
          · rw [rflat, List.append_assoc]
            exact ((Rearr.refl _).append (Rearr.merge hT2.1.1.2)).trans h9
          · have hi : T1.length + 1 < d := by
              rw [rflat] at hd
              simp only [List.length_append, hlen, hz] at hd
              exact (Nat.pow_lt_pow_iff_right (show 1 < 2 by omega)).1 (show 2 ^ (T1.length + 1) < 2 ^ d by omega)
            rw [hc, pot]
            rw [hml] at h10
            simp only [List.length_append, List.length_singleton] at h10
            rw [hlen, hz]
            obtain ⟨e, rfl⟩ : ∃ e, d = T1.length + 1 + e := ⟨d - (T1.length + 1), by omega⟩
            rw [show T1.length + 1 + e - (T1.length + 1) = e by omega] at h10
            rw [show T1.length + 1 + e - T1.length = e + 1 by omega, Nat.mul_succ]
            rw [hsucc] at h10 ⊢
            have : 2 ^ T1.length * 2 * e = 2 * (2 ^ T1.length * e) := by rw [Nat.mul_comm (2 ^ T1.length) 2, Nat.mul_assoc]
            rw [this] at h10
            omega
    · intro hi
      have hh : ∀ t', (t :: T2).head? = some t' → t'.ys = [] := by
        intro t' ht'
        simp only [List.head?_cons, Option.some.injEq] at ht'
        subst ht'; exact hT2.1.2 (by omega)
      retP
      xexists T1, t :: T2, sc, z
      cancel
      exact ⟨rfl, rfl, hT1, hT2, hh, hz, hzs, hf1, Rearr.refl _, by rw [carryCost_stop hh]; omega⟩

theorem carryCost_le {fill d i : Nat} {T : List (Ent V)} (hT : GoodFrom comp fill i T) (hd : (rflat T).length + 2 ^ i < 2 ^ d) :
    carryCost T i ≤ 3 + (pot d i T + 51 * (2 ^ i * (d - i))) := by
  induction T generalizing i with
  | nil => rw [carryCost]; omega
  | cons t T ih =>
    rw [carryCost]
    split
    · omega
    · rename_i he
      have hlen : t.ys.length = 2 ^ i := by
        rcases hT.1.1.1 with h | h
        · rw [h] at he; simp at he
        · exact h
      have hsucc : 2 ^ (i + 1) = 2 ^ i * 2 := Nat.pow_succ ..
      rw [rflat] at hd
      simp only [List.length_append] at hd
      have h1 := ih hT.2 (by omega)
      have hi : i + 1 < d := (Nat.pow_lt_pow_iff_right (show 1 < 2 by omega)).1 (show 2 ^ (i + 1) < 2 ^ d by omega)
      obtain ⟨e, rfl⟩ : ∃ e, d = i + 1 + e := ⟨d - (i + 1), by omega⟩
      rw [pot, hlen]
      rw [show i + 1 + e - (i + 1) = e by omega] at h1
      rw [show i + 1 + e - i = e + 1 by omega, Nat.mul_succ]
      rw [hsucc] at h1 ⊢
      have : 2 ^ i * 2 * e = 2 * (2 ^ i * e) := by rw [Nat.mul_comm (2 ^ i) 2, Nat.mul_assoc]
      rw [this] at h1
      omega

theorem sortLoop_time {cc sc fill : Nat} {T : List (Ent V)} {L : List (Elem V)} (hty : ty ≠ 0)
    (hT : GoodFrom comp fill 0 T) (hf : fill ≤ T.length) (hlen : (rflat T ++ L).length < 2 ^ T.length)
    {d : Nat} (hd : (rflat T ++ L).length < 2 ^ d) (hfl : fill = 0 ∨ 2 ^ (fill - 1) ≤ (rflat T).length) (hk : 33 * L.length + (pot d 0 T + 51 * (L.length * d)) + 3 ≤ k) :
    Triple nf (bag ty T ∗ isList cc sc ty [] ∗ isList l s ty L) (within k (sortLoop comp l cc (T.map Ent.c) fill))
      (fun r => ∃ₛ T' sc', ⌜T'.map Ent.c = T.map Ent.c ∧ GoodFrom comp r 0 T' ∧ r ≤ T'.length ∧
          fill ≤ r ∧ (L ≠ [] → 0 < r) ∧ Rearr comp (rflat T ++ L) (rflat T') ∧ (r = 0 ∨ 2 ^ (r - 1) ≤ (rflat T').length)⌝ ∗
        bag ty T' ∗ isList cc sc' ty [] ∗ isList l s ty []) := by
  induction L generalizing T fill sc k with
  | nil =>
    rw [sortLoop]
    callP (empty_spec (l := l))
    intro r
    xsub
    rw [if_pos (by rfl)]
    retP
    xexists T, sc
    cancel
    refine ⟨rfl, hT, hf, Nat.le_refl _, by simp, by simpa using Rearr.refl _, hfl⟩
  | cons x L ih =>
    simp only [List.length_cons, Nat.succ_mul] at hk
    rw [sortLoop]
    callP (empty_spec (l := l))
    intro r
    xsub
    rw [if_neg (by simp)]
    callP (begin_spec (l := cc))
    intro r
    xsub
    callP (begin_spec (l := l))
    intro r
    xsub
    callP (begin_spec (l := l))
    intro r
    xsub
    rw [firstN_nil, firstN_cons, ← List.nil_append (x :: L)]
    callP (nxt_spec (l := l))
    intro r
    xsub
    have ht := transfer_lists (nf := nf) (l := cc) (s := sc) (ty := ty) (o := l) (s2 := s) (t2 := ty) (X := []) (Y := []) (Z := []) (M := [x]) (W := L)
    simp only [List.nil_append, firstN_cons, List.singleton_append, firstN_nil, List.append_nil] at ht
    rw [List.nil_append]
    callP ht
    intro _
    have hc := sortCarry_time (nf := nf) (comp := comp) (ty := ty) (cc := cc) (sc := sc) (fill := fill) (T1 := []) (T2 := T) (z := [x]) hty
      (by simp) hT rfl (fun _ => List.pairwise_singleton _ _) (by simp) (by simpa using hf) (d := d)
      (by simp only [List.length_append, List.length_cons, List.length_nil] at hd ⊢; omega) (Nat.le_refl _)
    simp only [List.nil_append, List.length_nil] at hc
    have hcc := carryCost_le (d := d) hT (by simp only [List.length_append, List.length_cons] at hd; omega)
    simp only [Nat.pow_zero, Nat.one_mul, Nat.sub_zero] at hcc
    payW (carryCost T 0)
    call hc
    intro r
    xintro T1 T2 sc1 z ⟨rfl, h2, h3, h4, h5, h6, h7, h8, h9, h10⟩
    have hTl : T1.length + T2.length = T.length := by
      have := congrArg List.length h2
      simpa using this
    cases T2 with
    | nil =>
      exfalso
      have := h9.1.length_eq
      simp only [rflat, List.nil_append, List.length_append, List.length_singleton, List.length_cons, List.length_nil] at this hTl hlen
      rw [h6, show T1.length = T.length from hTl] at this
      omega
    | cons t T2 =>
      have hte := h5 t rfl
      rw [← h2, at_append, bag_split]
      simp only [pure_bind]
      callP (swap_spec (l := cc) (l2 := t.c))
      intro _
      rw [hte]
      let T' : List (Ent V) := T1 ++ ⟨t.c, sc1, z⟩ :: T2
      have hTR : Rearr comp (rflat T ++ [x]) (rflat T') := by
        refine h9.trans ?_
        rw [rflat, hte, List.append_nil, rflat_append, rflat_empty h3, List.append_nil, rflat]
        exact Rearr.refl _
      have hT'l : T'.length = T.length := by simp [T'] at hTl ⊢; omega
      have ih' := ih (T := T') (fill := if T1.length = fill then fill + 1 else fill) (sc := t.s)
        (k := k - 3 - 2 - 2 - 2 - 1 - 12 - carryCost T 0 - 8)
        (by
          rw [GoodFrom.append]
          refine ⟨GoodFrom.empties h3, ⟨⟨Or.inr (by simpa using h6), h7⟩, ?_⟩, ?_⟩
          · intro h; exfalso; simp only [Nat.zero_add] at h; split at h <;> omega
          · rw [Nat.zero_add]; exact GoodFrom.mono (by split <;> omega) h4.2)
        (by rw [hT'l]; split <;> simp at hTl <;> omega)
        (by
          rw [hT'l]
          have := hTR.1.length_eq
          simp only [List.length_append, List.length_cons, List.length_nil] at this hlen ⊢
          omega)
        (by
          have := hTR.1.length_eq
          simp only [List.length_append, List.length_cons, List.length_nil] at this hd ⊢
          omega)
        (by
          right
          have h11 : (rflat T').length = (rflat T).length + 1 := by
            have := hTR.1.length_eq
            simpa using this
          split
          · rename_i hf
            have h12 := h9.1.length_eq
            simp only [List.length_append, List.length_singleton] at h12
            rw [Nat.add_sub_cancel, ← hf, ← h6]
            omega
          · rename_i hf
            rcases hfl with h | h
            · omega
            · omega)
        (by
          have hp : pot d 0 T' = 51 * (z.length * (d - T1.length)) + pot d (T1.length + 1) T2 := by
            rw [show T' = T1 ++ ⟨t.c, sc1, z⟩ :: T2 from rfl, pot_append, pot_empty h3, pot]
            simp
          rw [pot, hte] at h10
          simp only [List.length_nil, Nat.zero_mul, Nat.mul_zero, Nat.zero_add, List.length_singleton, Nat.one_mul, Nat.sub_zero] at h10
          omega)
      rw [show (T1 ++ t :: T2).map Ent.c = T'.map Ent.c by simp [T']]
      refine Triple.call_frame ih' (R := emp) ?_ ?_
      · rw [show bag ty T' = _ from bag_split _ _ _]
        cancel
      · intro r
        xintro T'' sc' ⟨g1, g2, g3, g4, g5, g6, g7⟩
        xexists T'', sc'
        cancel
        refine ⟨by rw [g1], g2, g3, ?_, ?_, ?_, g7⟩
        · split at g4 <;> omega
        · intro _; split at g4 <;> omega
        · have : rflat T ++ x :: L = (rflat T ++ [x]) ++ L := by simp
          rw [this]
          exact (hTR.append (Rearr.refl _)).trans g6

theorem sortFinal_time {fill : Nat} {T1 T2 : List (Ent V)} {t : Ent V} (hty : ty ≠ 0)
    (hT1 : ∀ t ∈ T1, t.ys = []) (hts : StrictWeak comp → Sorted (ltE comp) t.ys)
    (hT2 : GoodFrom comp fill (T1.length + 1) T2) (hf1 : T1.length + 1 ≤ fill) (hf2 : fill ≤ T1.length + 1 + T2.length)
    {n w : Nat} (hn : (rflat T2 ++ t.ys).length ≤ n) (hw : 17 * n + 23 ≤ w) (hk : (fill - (T1.length + 1)) * w ≤ k) :
    Triple nf (bag ty (T1 ++ t :: T2)) (within k (sortFinal comp ((T1 ++ t :: T2).map Ent.c) fill (T1.length + 1)))
      (fun _ => ∃ₛ T1' t' T2', ⌜(T1' ++ t' :: T2').map Ent.c = (T1 ++ t :: T2).map Ent.c ∧ T1'.length + 1 = fill ∧
          (∀ t ∈ T1', t.ys = []) ∧ (∀ t ∈ T2', t.ys = []) ∧ (StrictWeak comp → Sorted (ltE comp) t'.ys) ∧
          Rearr comp (rflat T2 ++ t.ys) t'.ys⌝ ∗ bag ty (T1' ++ t' :: T2')) := by
  induction T2 generalizing T1 t k with
  | nil =>
    have hf2' : fill ≤ T1.length + 1 := by simpa using hf2
    rw [sortFinal, if_neg (by omega)]
    retP
    xexists T1, t, []
    cancel
    exact ⟨rfl, by omega, hT1, by simp, hts, Rearr.refl _⟩
  | cons u T2 ih =>
    rw [sortFinal]
    iteP
    · intro hi
      have e1 : at_ (V := V) ((T1 ++ t :: u :: T2).map Ent.c) (T1.length + 1) = pure u.c := by
        have := at_append (T1 ++ [t]) T2 u
        simpa using this
      rw [e1, Nat.add_sub_cancel, at_append, bag_split, bag]
      simp only [pure_bind]
      rw [rflat] at hn
      simp only [List.length_append] at hn
      have hk' : w + (fill - (T1.length + 1 + 1)) * w ≤ k := by
        refine Nat.le_trans (Nat.le_of_eq ?_) hk
        rw [show fill - (T1.length + 1) = (fill - (T1.length + 1 + 1)) + 1 by omega, Nat.succ_mul, Nat.add_comm]
      payW (17 * (u.ys.length + t.ys.length) + 23)
      call (mergeBy_time (l := u.c) (o := t.c) (comp := comp) (ty := ty) (t2 := ty) (by simp [isSame, hty]) (Nat.le_refl _))
      intro _
      have ih' := ih (T1 := T1 ++ [⟨t.c, t.s, []⟩]) (t := ⟨u.c, u.s, mergeL (ltE comp) u.ys t.ys⟩)
        (by
          intro t' ht'
          rcases List.mem_append.1 ht' with h | h
          · exact hT1 t' h
          · simp at h; simp [h])
        (fun h => mergeL_sorted (h.comap Elem.val) (hT2.1.1.2 h) (hts h))
        (by simpa using hT2.2) (by simp; omega) (by simp at hf2 ⊢; omega)
        (by simp only [List.length_append, mergeL_length]; omega) (k := k - (17 * (u.ys.length + t.ys.length) + 23))
        (by simp only [List.length_append, List.length_singleton]; omega)
      rw [show (T1 ++ t :: u :: T2).map Ent.c = (T1 ++ [(⟨t.c, t.s, []⟩ : Ent V)] ++ (⟨u.c, u.s, mergeL (ltE comp) u.ys t.ys⟩ : Ent V) :: T2).map Ent.c by simp,
          show T1.length + 1 + 1 = (T1 ++ [(⟨t.c, t.s, []⟩ : Ent V)]).length + 1 by simp]
      refine Triple.call_frame ih' (R := emp) ?_ ?_
      · rw [List.append_assoc, List.singleton_append, bag_split, bag]
        cancel
      · intro r
        xintro T1' t' T2' ⟨h1, h2, h3, h4, h5, h6⟩
        xexists T1', t', T2'
        cancel
        refine ⟨h1, h2, h3, h4, h5, ?_⟩
        rw [rflat, List.append_assoc]
        exact ((Rearr.refl _).append (Rearr.merge hT2.1.1.2)).trans h6
    · intro hi
      retP
      xexists T1, t, u :: T2
      cancel
      have hall := GoodFrom.all_empty (by omega) hT2
      refine ⟨rfl, by omega, hT1, hall, hts, ?_⟩
      rw [rflat_empty hall]
      exact Rearr.refl _

end CC.CList
