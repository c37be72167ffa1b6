import Verif.SList.Spec3
/-!
# Correctness of `c_slist_sort_by` (proof layer)
-/
namespace CC.SList
open CC.Tac
open CC.CList (Elem nodes vals firstN lastN firstN_nil firstN_cons lastN_nil lastN_cons lastN_append_cons firstN_append
  blk_ne ArgVal ltE vals_mergeL Rearr)
variable {V β : Type} {E : Types V} {nf : Prop} {l a s : Addr} {ty : Nat} {xs ys : List (Elem V)}

/-- one of the counters: header, before-begin node, end node, content -/
structure Ent (V : Type) where
  c : Addr
  a : Addr
  s : Addr
  ys : List (Elem V)

/-- the counters in memory -/
def bag (ty : Nat) : List (Ent V) → HProp V
  | [] => emp
  | t :: T => isSList t.c t.a t.s ty t.ys ∗ bag ty T

theorem bag_append (T1 T2 : List (Ent V)) : bag ty (T1 ++ T2) = (bag ty T1 ∗ bag ty T2) := by
  induction T1 with
  | nil => simp [bag]
  | cons t T ih => simp only [List.cons_append, bag, ih, sep_assoc]

theorem bag_split (T1 T2 : List (Ent V)) (t : Ent V) :
    bag ty (T1 ++ t :: T2) = (bag ty T1 ∗ isSList t.c t.a t.s ty t.ys ∗ bag ty T2) := by
  rw [bag_append, bag]

/-- the contents, older elements first -/
def rflat : List (Ent V) → List (Elem V)
  | [] => []
  | t :: T => rflat T ++ t.ys

theorem rflat_append (T1 T2 : List (Ent V)) : rflat (T1 ++ T2) = rflat T2 ++ rflat T1 := by
  induction T1 with
  | nil => simp [rflat]
  | cons t T ih => simp only [List.cons_append, rflat, ih, List.append_assoc]

theorem rflat_empty {T : List (Ent V)} (h : ∀ t ∈ T, t.ys = []) : rflat T = [] := by
  induction T with
  | nil => rfl
  | cons t T ih => rw [rflat, ih (fun t ht => h t (by simp [ht])), h t (by simp)]; rfl

/-- a content: empty or of length `2^i`, and sorted -/
def Good (comp : V → V → Bool) (i : Nat) (ys : List (Elem V)) : Prop :=
  (ys = [] ∨ ys.length = 2^i) ∧ (StrictWeak comp → Sorted (ltE comp) ys)

def GoodFrom (comp : V → V → Bool) (fill : Nat) : Nat → List (Ent V) → Prop
  | _, [] => True
  | i, t :: T => (Good comp i t.ys ∧ (fill ≤ i → t.ys = [])) ∧ GoodFrom comp fill (i+1) T

theorem GoodFrom.append {comp : V → V → Bool} {fill i : Nat} {T1 T2 : List (Ent V)} :
    GoodFrom comp fill i (T1 ++ T2) ↔ GoodFrom comp fill i T1 ∧ GoodFrom comp fill (i + T1.length) T2 := by
  induction T1 generalizing i with
  | nil => simp [GoodFrom]
  | cons t T ih =>
    simp only [List.cons_append, GoodFrom, ih, List.length_cons, and_assoc]
    rw [show i + 1 + T.length = i + (T.length + 1) by omega]

theorem GoodFrom.empties {comp : V → V → Bool} {fill i : Nat} {T : List (Ent V)} (h : ∀ t ∈ T, t.ys = []) :
    GoodFrom comp fill i T := by
  induction T generalizing i with
  | nil => trivial
  | cons t T ih =>
    refine ⟨⟨⟨Or.inl (h t (by simp)), fun _ => ?_⟩, fun _ => h t (by simp)⟩, ih fun t ht => h t (by simp [ht])⟩
    rw [h t (by simp)]; exact List.Pairwise.nil

theorem GoodFrom.mono {comp : V → V → Bool} {fill fill' i : Nat} {T : List (Ent V)} (hf : fill ≤ fill')
    (h : GoodFrom comp fill i T) : GoodFrom comp fill' i T := by
  induction T generalizing i with
  | nil => trivial
  | cons t T ih => exact ⟨⟨h.1.1, fun h' => h.1.2 (by omega)⟩, ih h.2⟩

theorem GoodFrom.all_empty {comp : V → V → Bool} {fill i : Nat} {T : List (Ent V)} (hf : fill ≤ i)
    (h : GoodFrom comp fill i T) : ∀ t ∈ T, t.ys = [] := by
  induction T generalizing i with
  | nil => simp
  | cons t T ih =>
    intro t' ht'
    rcases List.mem_cons.1 ht' with rfl | ht'
    · exact h.1.2 hf
    · exact ih (i := i+1) (by omega) h.2 t' ht'

variable {comp : V → V → Bool}

theorem rearr_merge {xs ys : List (Elem V)} (hx : StrictWeak comp → Sorted (ltE comp) xs)
    (hy : StrictWeak comp → Sorted (ltE comp) ys) :
    Rearr comp (xs ++ ys) (mergeS (ltE comp) xs ys) :=
  ⟨mergeS_perm _ _ _, fun h => by rw [mergeS_eq (hy h)]; exact mergeL_stable (h.comap Elem.val) (hx h)⟩
theorem mergeS_sorted {xs ys : List (Elem V)} (hx : StrictWeak comp → Sorted (ltE comp) xs)
    (hy : StrictWeak comp → Sorted (ltE comp) ys) (h : StrictWeak comp) : Sorted (ltE comp) (mergeS (ltE comp) xs ys) := by
  rw [mergeS_eq (hy h)]; exact mergeL_sorted (h.comap Elem.val) (hx h) (hy h)
theorem mergeS_length {α : Type} (lt : α → α → Bool) (xs ys : List α) : (mergeS lt xs ys).length = xs.length + ys.length := by
  simpa using (mergeS_perm lt xs ys).length_eq

theorem at_append (T1 T2 : List (Ent V)) (t : Ent V) :
    at_ (V := V) ((T1 ++ t :: T2).map Ent.c) T1.length = pure t.c := by
  simp [at_]

theorem sortCarry_spec {cc ac sc fill : Nat} {T1 T2 : List (Ent V)} {z : List (Elem V)} (hty : ty ≠ 0)
    (hT1 : ∀ t ∈ T1, t.ys = []) (hT2 : GoodFrom comp fill T1.length T2) (hz : z.length = 2 ^ T1.length)
    (hzs : StrictWeak comp → Sorted (ltE comp) z) (hf1 : T1.length ≤ fill) (hf2 : fill ≤ T1.length + T2.length) :
    Triple nf (bag ty (T1 ++ T2) ∗ isSList cc ac sc ty z) (sortCarry comp cc ((T1 ++ T2).map Ent.c) fill T1.length)
      (fun r => ∃ₛ T1' T2' ac' sc' z', ⌜(r = T1'.length ∧ (T1' ++ T2').map Ent.c = (T1 ++ T2).map Ent.c ∧
          (∀ t ∈ T1', t.ys = []) ∧ GoodFrom comp fill T1'.length T2' ∧ (∀ t, T2'.head? = some t → t.ys = []) ∧
          z'.length = 2 ^ T1'.length ∧ (StrictWeak comp → Sorted (ltE comp) z') ∧ T1'.length ≤ fill ∧
          Rearr comp (rflat T2 ++ z) (rflat T2' ++ z'))⌝ ∗
        bag ty (T1' ++ T2') ∗ isSList cc ac' sc' ty z') := by
  induction T2 generalizing T1 ac sc z with
  | nil =>
    rw [sortCarry, if_neg (by simp at hf2; omega)]
    apply Triple.ret
    xexists T1, [], ac, sc, z
    cancel
    refine ⟨rfl, rfl, hT1, trivial, by simp, hz, hzs, hf1, CC.CList.Rearr.refl _⟩
  | cons t T2 ih =>
    rw [sortCarry]
    apply Triple.ite
    · intro hi
      rw [at_append, bag_split]
      step
      call (empty_spec (l := t.c))
      intro r
      xsub
      apply Triple.ite
      · intro he
        have hte : t.ys = [] := by simpa using he
        apply Triple.ret
        xexists T1, t :: T2, ac, sc, z
        rw [bag_split]
        cancel
        refine ⟨rfl, rfl, hT1, hT2, ?_, hz, hzs, hf1, CC.CList.Rearr.refl _⟩
        intro t' ht'
        simp only [List.head?_cons, Option.some.injEq] at ht'
        subst ht'; exact hte
      · intro he
        call (mergeBy_spec (l := t.c) (o := cc) (comp := comp) (ty := ty) (t2 := ty) (by simp [isSame, hty]))
        intro _
        call (swap_spec (l := cc) (o := t.c))
        intro _
        have hlen : t.ys.length = 2 ^ T1.length := by
          rcases hT2.1.1.1 with h | h
          · rw [h] at he; simp at he
          · exact h
        have ih' := ih (T1 := T1 ++ [⟨t.c, ac, sc, []⟩]) (ac := t.a) (sc := t.s) (z := mergeS (ltE comp) t.ys z)
          (by
            intro t' ht'
            rcases List.mem_append.1 ht' with h | h
            · exact hT1 t' h
            · simp at h; simp [h])
          (by simpa using hT2.2)
          (by rw [mergeS_length, hlen, hz]; simp [Nat.pow_succ]; omega)
          (mergeS_sorted hT2.1.1.2 hzs)
          (by simp; omega) (by simp at hf2 ⊢; omega)
        rw [show (T1 ++ t :: T2).map Ent.c = (T1 ++ [(⟨t.c, ac, sc, []⟩ : Ent V)] ++ T2).map Ent.c by simp,
          show T1.length + 1 = (T1 ++ [(⟨t.c, ac, sc, []⟩ : Ent V)]).length by simp]
        refine Triple.call_frame ih' (R := emp) ?_ ?_
        · rw [List.append_assoc, List.singleton_append, bag_split]
          cancel
        · intro r
          xintro T1' T2' ac' sc' z' ⟨h1, h2, h3, h4, h5, h6, h7, h8, h9⟩
          xexists T1', T2', ac', sc', z'
          cancel
          refine ⟨h1, h2, h3, h4, h5, h6, h7, h8, ?_⟩
          rw [rflat, List.append_assoc]
          exact ((CC.CList.Rearr.refl _).append (rearr_merge hT2.1.1.2 hzs)).trans h9
    · intro hi
      apply Triple.ret
      xexists T1, t :: T2, ac, sc, z
      cancel
      refine ⟨rfl, rfl, hT1, hT2, ?_, hz, hzs, hf1, CC.CList.Rearr.refl _⟩
      intro t' ht'
      simp only [List.head?_cons, Option.some.injEq] at ht'
      subst ht'; exact hT2.1.2 (by omega)

theorem sortLoop_spec {cc ac sc fill : Nat} {T : List (Ent V)} {L : List (Elem V)} (hty : ty ≠ 0)
    (hT : GoodFrom comp fill 0 T) (hf : fill ≤ T.length) (hlen : (rflat T ++ L).length < 2 ^ T.length) :
    Triple nf (bag ty T ∗ isSList cc ac sc ty [] ∗ isSList l a s ty L) (sortLoop comp l cc (T.map Ent.c) fill)
      (fun r => ∃ₛ T' ac' sc', ⌜T'.map Ent.c = T.map Ent.c ∧ GoodFrom comp r 0 T' ∧ r ≤ T'.length ∧
          fill ≤ r ∧ (L ≠ [] → 0 < r) ∧ Rearr comp (rflat T ++ L) (rflat T')⌝ ∗
        bag ty T' ∗ isSList cc ac' sc' ty [] ∗ isSList l a s ty []) := by
  induction L generalizing T fill ac sc with
  | nil =>
    rw [sortLoop]
    call (empty_spec (l := l))
    intro r
    xsub
    rw [if_pos (by rfl)]
    apply Triple.ret
    xexists T, ac, sc
    cancel
    refine ⟨rfl, hT, hf, Nat.le_refl _, by simp, by simpa using CC.CList.Rearr.refl _⟩
  | cons x L ih =>
    rw [sortLoop]
    call (empty_spec (l := l))
    intro r
    xsub
    rw [if_neg (by simp)]
    call (beforeBegin_spec (l := cc))
    intro r
    xsub
    call (beforeBegin_spec (l := l))
    intro r
    xsub
    call (begin_spec (l := l))
    intro r
    xsub
    rw [firstN_cons, ← List.nil_append (x :: L)]
    call (nxt_spec' (l := l))
    intro r
    xsub
    have ht := transfer_lists (nf := nf) (l := cc) (a := ac) (s := sc) (ty := ty) (o := l) (a2 := a) (s2 := s) (t2 := ty) (X := []) (Y := []) (Z := []) (M := [x]) (W := L)
    simp only [List.nil_append, firstN_cons, List.singleton_append, lastN_nil, List.append_nil] at ht
    rw [List.nil_append]
    call ht
    intro _
    have hc := sortCarry_spec (nf := nf) (comp := comp) (ty := ty) (cc := cc) (ac := ac) (sc := sc) (fill := fill) (T1 := []) (T2 := T) (z := [x]) hty
      (by simp) hT rfl (fun _ => List.pairwise_singleton _ _) (by simp) (by simpa using hf)
    simp only [List.nil_append, List.length_nil] at hc
    call hc
    intro r
    xintro T1 T2 ac1 sc1 z ⟨rfl, h2, h3, h4, h5, h6, h7, h8, h9⟩
    have hTl : T1.length + T2.length = T.length := by
      have := congrArg List.length h2
      simpa using this
    cases T2 with
    | nil =>
      exfalso
      have := h9.1.length_eq
      simp only [rflat, List.nil_append, List.length_append, List.length_singleton, List.length_cons, List.length_nil] at this hTl hlen
      rw [h6, show T1.length = T.length from hTl] at this
      omega
    | cons t T2 =>
      have hte := h5 t rfl
      rw [← h2, at_append, bag_split]
      step
      call (swap_spec (l := cc) (o := t.c))
      intro _
      rw [hte]
      let T' : List (Ent V) := T1 ++ ⟨t.c, ac1, sc1, z⟩ :: T2
      have hTR : Rearr comp (rflat T ++ [x]) (rflat T') := by
        refine h9.trans ?_
        rw [rflat, hte, List.append_nil, rflat_append, rflat_empty h3, List.append_nil, rflat]
        exact CC.CList.Rearr.refl _
      have hT'l : T'.length = T.length := by simp [T'] at hTl ⊢; omega
      have ih' := ih (T := T') (fill := if T1.length = fill then fill + 1 else fill) (ac := t.a) (sc := t.s)
        (by
          rw [GoodFrom.append]
          refine ⟨GoodFrom.empties h3, ⟨⟨Or.inr (by simpa using h6), h7⟩, ?_⟩, ?_⟩
          · intro h; exfalso; simp only [Nat.zero_add] at h; split at h <;> omega
          · rw [Nat.zero_add]; exact GoodFrom.mono (by split <;> omega) h4.2)
        (by rw [hT'l]; split <;> simp at hTl <;> omega)
        (by
          rw [hT'l]
          have := hTR.1.length_eq
          simp only [List.length_append, List.length_cons, List.length_nil] at this hlen ⊢
          omega)
      rw [show (T1 ++ t :: T2).map Ent.c = T'.map Ent.c by simp [T']]
      refine Triple.call_frame ih' (R := emp) ?_ ?_
      · rw [show bag ty T' = _ from bag_split _ _ _]
        cancel
      · intro r
        xintro T'' ac' sc' ⟨g1, g2, g3, g4, g5, g6⟩
        xexists T'', ac', sc'
        cancel
        refine ⟨by rw [g1], g2, g3, ?_, ?_, ?_⟩
        · split at g4 <;> omega
        · intro _; split at g4 <;> omega
        · have : rflat T ++ x :: L = (rflat T ++ [x]) ++ L := by simp
          rw [this]
          exact (hTR.append (CC.CList.Rearr.refl _)).trans g6

theorem sortFinal_spec {fill : Nat} {T1 T2 : List (Ent V)} {t : Ent V} (hty : ty ≠ 0)
    (hT1 : ∀ t ∈ T1, t.ys = []) (hts : StrictWeak comp → Sorted (ltE comp) t.ys)
    (hT2 : GoodFrom comp fill (T1.length + 1) T2) (hf1 : T1.length + 1 ≤ fill) (hf2 : fill ≤ T1.length + 1 + T2.length) :
    Triple nf (bag ty (T1 ++ t :: T2)) (sortFinal comp ((T1 ++ t :: T2).map Ent.c) fill (T1.length + 1))
      (fun _ => ∃ₛ T1' t' T2', ⌜(T1' ++ t' :: T2').map Ent.c = (T1 ++ t :: T2).map Ent.c ∧ T1'.length + 1 = fill ∧
          (∀ t ∈ T1', t.ys = []) ∧ (∀ t ∈ T2', t.ys = []) ∧ (StrictWeak comp → Sorted (ltE comp) t'.ys) ∧
          Rearr comp (rflat T2 ++ t.ys) t'.ys⌝ ∗ bag ty (T1' ++ t' :: T2')) := by
  induction T2 generalizing T1 t with
  | nil =>
    have hf2' : fill ≤ T1.length + 1 := by simpa using hf2
    rw [sortFinal, if_neg (by omega)]
    apply Triple.ret
    xexists T1, t, []
    cancel
    exact ⟨rfl, by omega, hT1, by simp, hts, CC.CList.Rearr.refl _⟩
  | cons u T2 ih =>
    rw [sortFinal]
    apply Triple.ite
    · intro hi
      have e1 : at_ (V := V) ((T1 ++ t :: u :: T2).map Ent.c) (T1.length + 1) = pure u.c := by
        have := at_append (T1 ++ [t]) T2 u
        simpa using this
      rw [e1, Nat.add_sub_cancel, at_append, bag_split, bag]
      steps
      call (mergeBy_spec (l := u.c) (o := t.c) (comp := comp) (ty := ty) (t2 := ty) (by simp [isSame, hty]))
      intro _
      have ih' := ih (T1 := T1 ++ [⟨t.c, t.a, t.s, []⟩]) (t := ⟨u.c, u.a, u.s, mergeS (ltE comp) u.ys t.ys⟩)
        (by
          intro t' ht'
          rcases List.mem_append.1 ht' with h | h
          · exact hT1 t' h
          · simp at h; simp [h])
        (mergeS_sorted hT2.1.1.2 hts)
        (by simpa using hT2.2) (by simp; omega) (by simp at hf2 ⊢; omega)
      rw [show (T1 ++ t :: u :: T2).map Ent.c = (T1 ++ [(⟨t.c, t.a, t.s, []⟩ : Ent V)] ++ (⟨u.c, u.a, u.s, mergeS (ltE comp) u.ys t.ys⟩ : Ent V) :: T2).map Ent.c by simp,
          show T1.length + 1 + 1 = (T1 ++ [(⟨t.c, t.a, t.s, []⟩ : Ent V)]).length + 1 by simp]
      refine Triple.call_frame ih' (R := emp) ?_ ?_
      · rw [List.append_assoc, List.singleton_append, bag_split, bag]
        cancel
      · intro r
        xintro T1' t' T2' ⟨h1, h2, h3, h4, h5, h6⟩
        xexists T1', t', T2'
        cancel
        refine ⟨h1, h2, h3, h4, h5, ?_⟩
        rw [rflat, List.append_assoc]
        exact ((CC.CList.Rearr.refl _).append (rearr_merge hT2.1.1.2 hts)).trans h6
    · intro hi
      apply Triple.ret
      xexists T1, t, u :: T2
      cancel
      have hall := GoodFrom.all_empty (by omega) hT2
      refine ⟨rfl, by omega, hT1, hall, hts, ?_⟩
      rw [rflat_empty hall]
      exact CC.CList.Rearr.refl _

theorem createCounters_spec {k : Nat} {P : HProp V} {Q : β → HProp V} {kk : List Addr × Bool → M V β} (hty : ty ≠ 0)
    (hfail : ∀ T n, ¬ nf → Triple nf (bag ty T ∗ P) (kk (T.map Ent.c ++ List.replicate n 0, false)) Q)
    (hok : ∀ T, T.length = k → (∀ t ∈ T, t.ys = []) → Triple nf (bag ty T ∗ P) (kk (T.map Ent.c, true)) Q) :
    Triple nf P (createCounters ty k >>= kk) Q := by
  induction k generalizing P kk with
  | zero =>
    rw [createCounters]
    step
    have := hok [] rfl (by simp)
    simpa [bag] using this
  | succ k ih =>
    rw [createCounters]
    step
    apply create_spec hty
    · intro h
      rw [if_pos rfl]
      step
      have := hfail [] (k+1) h
      simpa [bag] using this
    · intro c a s hc
      rw [if_neg hc]
      step
      apply ih
      · intro T n h
        steps
        have := hfail (⟨c, a, s, []⟩ :: T) n h
        refine Triple.pre ?_ this
        rw [bag]
        cancel
      · intro T hT hTe
        steps
        have := hok (⟨c, a, s, []⟩ :: T) (by simp [hT]) (by
          intro t ht
          rcases List.mem_cons.1 ht with rfl | ht
          · rfl
          · exact hTe t ht)
        refine Triple.pre ?_ this
        rw [bag]
        cancel

theorem destroyCounters_spec {T : List (Ent V)} {n : Nat} :
    Triple nf (bag ty T) (destroyCounters (T.map Ent.c ++ List.replicate n 0)) (fun _ => emp) := by
  induction T with
  | nil =>
    simp only [List.map_nil, List.nil_append, bag]
    induction n with
    | zero => rw [List.replicate_zero, destroyCounters]; apply Triple.ret; cancel
    | succ n ih =>
      rw [List.replicate_succ, destroyCounters]
      call destroy_null
      intro _
      simpa using ih
  | cons t T ih =>
    rw [List.map_cons, List.cons_append, destroyCounters, bag]
    call (destroy_spec (l := t.c))
    intro _
    simpa using ih

theorem sortBy_spec (hty : ty ≠ 0) (hlen : xs.length < 2 ^ 64) :
    Triple nf (isSList l a s ty xs) (sortBy l (some comp))
      (fun _ => ∃ₛ a' s' ys, ⌜Rearr comp xs ys ∧
          ((StrictWeak comp → Sorted (ltE comp) ys) ∨ (¬ nf ∧ ys = xs))⌝ ∗ isSList l a' s' ty ys) := by
  unfold sortBy
  call empty_spec
  intro r
  xsub
  apply Triple.ite
  · intro he
    have : xs = [] := by simpa using he
    subst this
    apply Triple.ret
    xexists a, s, []
    cancel
    exact ⟨CC.CList.Rearr.refl _, Or.inl fun _ => List.Pairwise.nil⟩
  intro he
  have hxs : xs ≠ [] := by simpa using he
  call single_spec
  intro r
  xintro hr
  rw [hr hxs]
  apply Triple.ite
  · intro h1
    obtain ⟨x, rfl⟩ := List.length_eq_one_iff.1 (by simpa using h1)
    apply Triple.ret
    xexists a, s, [x]
    cancel
    exact ⟨CC.CList.Rearr.refl _, Or.inl fun _ => List.pairwise_singleton _ _⟩
  intro h1
  dsimp only
  call ltype_spec
  intro r
  xsub
  apply create_spec hty
  · intro h
    rw [if_pos rfl]
    apply Triple.ret
    xexists a, s, xs
    cancel
    exact ⟨CC.CList.Rearr.refl _, Or.inr ⟨h, rfl⟩⟩
  intro cc ac sc hcc
  rw [if_neg hcc]
  call (ltype_spec (l := l))
  intro r
  xsub
  apply createCounters_spec hty
  · intro T n h
    dsimp only
    rw [if_neg (by simp)]
    call destroyCounters_spec
    intro _
    call (destroy_spec (l := cc))
    intro _
    xexists a, s, xs
    cancel
    exact ⟨CC.CList.Rearr.refl _, Or.inr ⟨h, rfl⟩⟩
  intro T hTl hTe
  dsimp only
  rw [if_pos rfl]
  have hl := sortLoop_spec (nf := nf) (comp := comp) (ty := ty) (l := l) (a := a) (s := s) (cc := cc) (ac := ac) (sc := sc) (fill := 0) (T := T) (L := xs) hty
    (GoodFrom.empties hTe) (by omega) (by rw [rflat_empty hTe, hTl]; simpa using hlen)
  call hl
  intro fill
  xintro T' ac' sc' ⟨h1, h2, h3, _, h5, h6⟩
  rw [rflat_empty hTe, List.nil_append] at h6
  have hfill := h5 hxs
  cases T' with
  | nil => exfalso; simp at h3; omega
  | cons t T' =>
    rw [← h1]
    have hf := sortFinal_spec (nf := nf) (comp := comp) (ty := ty) (T1 := []) (t := t) (T2 := T') (fill := fill) hty
      (by simp) h2.1.1.2 (by simpa using h2.2) (by simp; omega) (by simp at h3 ⊢; omega)
    simp only [List.nil_append, List.length_nil, Nat.zero_add] at hf
    call hf
    intro _
    xintro T1 u T2 ⟨g1, g2, g3, g4, g5, g6⟩
    rw [← g1, show fill - 1 = T1.length by omega, at_append, bag_split]
    step
    call (swap_spec (l := l) (o := u.c))
    intro _
    have hd := destroyCounters_spec (nf := nf) (ty := ty) (T := T1 ++ ⟨u.c, a, s, []⟩ :: T2) (n := 0)
    simp only [List.replicate_zero, List.append_nil, bag_split] at hd
    rw [show (T1 ++ u :: T2).map Ent.c = (T1 ++ (⟨u.c, a, s, []⟩ : Ent V) :: T2).map Ent.c by simp]
    call hd
    intro _
    call (destroy_spec (l := cc))
    intro _
    xexists u.a, u.s, u.ys
    cancel
    exact ⟨h6.trans g6, Or.inl g5⟩

theorem sort_spec (hty : ty ≠ 0) (hlen : xs.length < 2 ^ 64) :
    Triple nf (isSList l a s ty xs) (sort E l)
      (fun _ => ∃ₛ a' s' ys, ⌜Rearr (E ty).less xs ys ∧
          ((StrictWeak (E ty).less → Sorted (ltE (E ty).less) ys) ∨ (¬ nf ∧ ys = xs))⌝ ∗ isSList l a' s' ty ys) := by
  apply list_facts0; intro f
  unfold sort
  rw [if_neg f.l0]
  call ltype_spec
  intro r
  xsub
  refine Triple.post (sortBy_spec hty hlen) ?_
  intro _
  xintro a' s' ys h
  xexists a', s', ys
  cancel

end CC.SList
