import Verif.Algo.SortSpec3
import Verif.Spec.Raised
/-!
# What `algo_sort_by` does to ranges of any length

After the partitioning phase the range consists of blocks in the right order, each sorted already or of at most 512 elements.  The last phase sorts the first 512 elements, and replaces
every later element by the largest element up to there (`carry`).
-/
namespace CC.Algo
open CC CC.Tac
variable {V : Type} {nf : Prop} {P : HProp V} {c : Slots} {i n : Nat} {f g : Nat → V} {vs ws : List V} {comp : V → V → Bool}

theorem _root_.CC.InBlocks.one (h : ws.length ≤ 512 ∨ Sorted comp ws) : InBlocks comp ws :=
  ⟨[ws], by simp, by intro b hb; obtain rfl := List.mem_singleton.1 hb; exact h, List.pairwise_singleton _ _⟩

theorem _root_.CC.InBlocks.append {us : List V} (h1 : InBlocks comp us) (h2 : InBlocks comp ws) (h : ∀ a, a ∈ us → ∀ b, b ∈ ws → comp b a = false) : InBlocks comp (us ++ ws) := by
  obtain ⟨bs, rfl, ha, hb⟩ := h1
  obtain ⟨cs, rfl, hc, hd⟩ := h2
  refine ⟨bs ++ cs, by simp, ?_, List.pairwise_append.2 ⟨hb, hd, ?_⟩⟩
  · intro b hb
    rcases List.mem_append.1 hb with h | h
    · exact ha b h
    · exact hc b h
  · intro x hx y hy a hax b hby
    exact h a (List.mem_flatten.2 ⟨x, hx, hax⟩) b (List.mem_flatten.2 ⟨y, hy, hby⟩)

/-- an element of the first 512 is not larger than any later element -/
theorem _root_.CC.InBlocks.low (hsw : StrictWeak comp) {A B : List V} (h : InBlocks comp (A ++ B)) (hA : A.length = 512) : ∃ w, w ∈ A ∧ ∀ v, v ∈ B → comp v w = false := by
  obtain ⟨bs, hAB, hb, hp⟩ := h
  induction bs with
  | nil =>
    have := congrArg List.length hAB
    simp only [List.length_append, List.flatten_nil, List.length_nil] at this
    omega
  | cons b bs ih =>
    rw [List.pairwise_cons] at hp
    cases b with
    | nil => exact ih (by simpa using hAB) (fun x hx => hb x (List.mem_cons_of_mem _ hx)) hp.2
    | cons w b =>
      rw [List.flatten_cons] at hAB
      have hwA : w ∈ A := by
        cases A with
        | nil => simp at hA
        | cons a A =>
          simp only [List.cons_append, List.cons.injEq] at hAB
          rw [hAB.1]
          exact List.mem_cons_self
      refine ⟨w, hwA, ?_⟩
      intro v hv
      rcases hb (w :: b) List.mem_cons_self with hs | hs
      · have hB : v ∈ bs.flatten := by
          have h2 : B = ((w :: b) ++ bs.flatten).drop 512 := by rw [← hAB, ← hA]; simp
          rw [h2, List.drop_append, List.drop_eq_nil_of_le hs, List.nil_append] at hv
          exact List.mem_of_mem_drop hv
        obtain ⟨y, hy, hvy⟩ := List.mem_flatten.1 hB
        exact hp.1 y hy w List.mem_cons_self v hvy
      · have hv' : v ∈ (w :: b) ++ bs.flatten := by rw [← hAB]; exact List.mem_append_right _ hv
        rcases List.mem_append.1 hv' with h | h
        · rcases List.mem_cons.1 h with rfl | h
          · exact hsw.irrefl _
          · exact (List.pairwise_cons.1 hs).1 v h
        · obtain ⟨y, hy, hvy⟩ := List.mem_flatten.1 h
          exact hp.1 y hy w List.mem_cons_self v hvy

/-! ## the partitioning phase -/

/-- sortedness by positions -/
def SortedF (comp : V → V → Bool) (n : Nat) (f : Nat → V) : Prop := ∀ a b, a < b → b < n → comp (f b) (f a) = false

theorem sorted_tab : Sorted comp (tab n f) ↔ SortedF comp n f := by
  unfold Sorted SortedF
  rw [List.pairwise_iff_getElem]
  constructor
  · intro h a b hab hb
    have := h a b (by simp; omega) (by simp; omega) hab
    rwa [tab_getElem, tab_getElem] at this
  · intro h a b ha hb hab
    rw [tab_getElem, tab_getElem]
    exact h a b hab (by simpa using hb)

theorem upScan_full (hsw : StrictWeak comp) {pivot : V} {p u : Nat} (hpu : p ≤ u) (hu : u < n) (hg : comp (f u) pivot = false) (hlow : ∀ j, j < p → comp pivot (f j) = false) :
    Triple nf (seg c i (tab n f)) (upScan c comp pivot (i + p))
      (fun r => ∃ₛ k, ⌜r = i + k ∧ p ≤ k ∧ k ≤ u ∧ comp (f k) pivot = false ∧ ∀ j, j < k → comp pivot (f j) = false⌝ ∗ seg c i (tab n f)) := by
  induction hm : u - p generalizing p with
  | zero =>
    obtain rfl : p = u := by omega
    rw [upScan]
    refine test_reads (tab_reads hu) ?_
    rw [if_neg (by simp [hg])]
    apply Triple.ret
    xexists p
    cancel
  | succ m ih =>
    rw [upScan]
    refine test_reads (tab_reads (k := p) (by omega)) ?_
    by_cases hc : comp (f p) pivot = true
    · rw [if_pos hc]
      refine Triple.post (ih (p := p + 1) (by omega) ?_ (by omega)) ?_
      · intro j hj
        rcases Nat.lt_succ_iff_lt_or_eq.1 hj with h | rfl
        · exact hlow j h
        · exact hsw.asymm hc
      intro r
      xintro k hk
      xexists k
      cancel
      exact ⟨hk.1, by omega, hk.2.2⟩
    · rw [if_neg hc]
      apply Triple.ret
      xexists p
      cancel
      exact ⟨rfl, Nat.le_refl _, hpu, by simpa using hc, hlow⟩

theorem downScan_full (hsw : StrictWeak comp) {pivot : V} {q w : Nat} (hwq : w ≤ q) (hq : q < n) (hg : comp pivot (f w) = false)
    (hhigh : ∀ j, q < j → j < n → comp (f j) pivot = false) :
    Triple nf (seg c i (tab n f)) (downScan c comp pivot (i + q))
      (fun r => ∃ₛ k, ⌜r = i + k ∧ w ≤ k ∧ k ≤ q ∧ comp pivot (f k) = false ∧ ∀ j, k < j → j < n → comp (f j) pivot = false⌝ ∗ seg c i (tab n f)) := by
  induction hm : q - w generalizing q with
  | zero =>
    obtain rfl : q = w := by omega
    rw [downScan]
    refine test_reads (tab_reads hq) ?_
    rw [if_neg (by simp [hg])]
    apply Triple.ret
    xexists q
    cancel
  | succ m ih =>
    rw [downScan]
    refine test_reads (tab_reads hq) ?_
    by_cases hc : comp pivot (f q) = true
    · rw [if_pos hc]
      obtain ⟨q', rfl⟩ : ∃ q', q = q' + 1 := ⟨q - 1, by omega⟩
      rw [show i + (q' + 1) = i + q' + 1 by omega]
      apply dec_spec
      refine Triple.post (ih (q := q') (by omega) (by omega) ?_ (by omega)) ?_
      · intro j hj hjn
        by_cases h : j = q' + 1
        · subst h; exact hsw.asymm hc
        · exact hhigh j (by omega) hjn
      intro r
      xintro k hk
      xexists k
      cancel
      exact ⟨hk.1, hk.2.1, by omega, hk.2.2.2⟩
    · rw [if_neg hc]
      apply Triple.ret
      xexists q
      cancel
      exact ⟨rfl, hwq, Nat.le_refl _, by simpa using hc, hhigh⟩

theorem hoare_full (hsw : StrictWeak comp) {pivot : V} {p q u w : Nat} (hpu : p ≤ u) (hu : u < n) (hgu : comp (f u) pivot = false) (hwq : w < q) (hq : q ≤ n)
    (hgw : comp pivot (f w) = false) (hlow : ∀ j, j < p → comp pivot (f j) = false) (hhigh : ∀ j, q ≤ j → j < n → comp (f j) pivot = false) :
    Triple nf (seg c i (tab n f)) (hoare c comp pivot (i + p) (i + q))
      (fun r => ∃ₛ g, ∃ₛ k, ⌜r = i + k ∧ k < n ∧ (tab n g).Perm (tab n f) ∧ (∀ j, j < k → comp pivot (g j) = false) ∧ (∀ j, k ≤ j → j < n → comp (g j) pivot = false) ∧
        (SortedF comp n f → SortedF comp n g)⌝ ∗ seg c i (tab n g)) := by
  induction q using Nat.strongRecOn generalizing p u w f with
  | _ q ih =>
    rw [hoare]
    refine Triple.bind (upScan_full hsw hpu hu hgu hlow) ?_
    intro r
    xintro k hk
    obtain ⟨rfl, hk1, hk2, hk3, hk4⟩ := hk
    obtain ⟨q', rfl⟩ : ∃ q', q = q' + 1 := ⟨q - 1, by omega⟩
    rw [show i + (q' + 1) = i + q' + 1 by omega]
    apply dec_spec
    refine Triple.bind (downScan_full hsw (w := w) (by omega) (by omega) hgw (fun j h1 h2 => hhigh j (by omega) h2)) ?_
    intro r
    xintro l hl
    obtain ⟨rfl, hl1, hl2, hl3, hl4⟩ := hl
    by_cases hlt : i + k < i + l
    · rw [if_pos hlt]
      refine Triple.bind (swp_tab (by omega) (by omega)) ?_
      intro _
      rw [show i + k + 1 = i + (k + 1) by omega]
      refine Triple.post (ih l (by omega) (p := k + 1) (u := l) (w := k) (by omega) (by omega) (by rw [swapf_right]; exact hk3) (by omega) (by omega)
        (by rw [swapf_left]; exact hl3) ?_ ?_) ?_
      · intro j hj
        by_cases h : j = k
        · subst h; rw [swapf_left]; exact hl3
        · rw [swapf_other h (by omega)]; exact hk4 j (by omega)
      · intro j h1 h2
        by_cases h : j = l
        · subst h; rw [swapf_right]; exact hk3
        · rw [swapf_other (by omega) h]; exact hl4 j (by omega) h2
      intro r
      xintro g m hg
      xexists g, m
      cancel
      refine ⟨hg.1, hg.2.1, hg.2.2.1.trans (tab_swapf_perm (by omega) (by omega)), hg.2.2.2.1, hg.2.2.2.2.1, ?_⟩
      intro hs
      refine hg.2.2.2.2.2 ?_
      -- both elements are equivalent to the pivot
      have e1 : comp (f k) (f l) = false := hsw.negtrans hk3 hl3
      have e2 : comp (f l) (f k) = false := hs k l (by omega) (by omega)
      have heq : ∀ j, (comp (swapf f k l j) (f j) = false ∧ comp (f j) (swapf f k l j) = false) := by
        intro j
        by_cases h : j = k
        · subst h; rw [swapf_left]; exact ⟨e2, e1⟩
        · by_cases h' : j = l
          · subst h'; rw [swapf_right]; exact ⟨e1, e2⟩
          · rw [swapf_other h h']; exact ⟨hsw.irrefl _, hsw.irrefl _⟩
      intro a b hab hb
      exact hsw.negtrans (heq b).1 (hsw.negtrans (hs a b hab hb) (heq a).2)
    · rw [if_neg hlt]
      apply Triple.ret
      xexists f, k
      cancel
      refine ⟨rfl, by omega, List.Perm.refl _, hk4, ?_, id⟩
      intro j h1 h2
      by_cases h : j = k
      · subst h; exact hk3
      · exact hl4 j (by omega) h2

theorem introsort_full (hsw : StrictWeak comp) (depth : Nat) :
    Triple nf (seg c i vs) (introsort c comp depth i (i + vs.length)) (fun _ => ∃ₛ ws, ⌜ws.Perm vs ∧ InBlocks comp ws ∧ (Sorted comp vs → Sorted comp ws)⌝ ∗ seg c i ws) := by
  induction depth generalizing i vs with
  | zero =>
    rw [introsort]
    by_cases hn : i + vs.length - i > threshold
    · rw [if_pos hn]
      have := partialSort_spec (nf := nf) (c := c) (i := i) (A := vs) (B := []) hsw
      simp only [List.append_nil, List.length_nil, Nat.add_zero] at this
      refine Triple.post this ?_
      intro _
      xintro A' B' h
      have hB : B' = [] := by
        have h1 := h.1.length_eq
        rw [List.length_append] at h1
        exact List.length_eq_zero_iff.1 (by omega)
      subst hB
      rw [List.append_nil] at h
      xexists A' ++ []
      rw [List.append_nil]
      cancel
      exact ⟨h.1, InBlocks.one (Or.inr h.2.2.1), fun _ => h.2.2.1⟩
    · rw [if_neg hn]
      apply Triple.ret
      xexists vs
      have ht : threshold = 512 := rfl
      cancel
      exact ⟨List.Perm.refl _, InBlocks.one (Or.inl (by omega)), id⟩
  | succ depth ih =>
    rw [introsort]
    have ht : threshold = 512 := rfl
    by_cases hn : i + vs.length - i > threshold
    · rw [if_pos hn]
      have h512 : (512 : Nat) < vs.length := by omega
      obtain ⟨f, hf⟩ := exists_tab (vs := vs) (by intro h; subst h; simp at h512)
      generalize hnn : vs.length = n at *
      subst hf
      refine Triple.bind (median_spec (tab_reads (k := 0) (by omega)) (tab_reads (k := (i + n - i) / 2) (by omega))
        (by have := tab_reads (V := V) (c := c) (i := i) (n := n) (f := f) (k := n - 1) (by omega); rwa [show i + (n - 1) = i + n - 1 by omega] at this)) ?_
      intro pivot
      xintro hp
      obtain ⟨m, hm, rfl⟩ : ∃ m, m < n ∧ pivot = f m := by
        rcases hp with h | h | h
        · exact ⟨_, by omega, h⟩
        · exact ⟨_, by omega, h⟩
        · exact ⟨_, by omega, h⟩
      refine Triple.bind (hoare_full hsw (p := 0) (q := n) (u := m) (w := m) (by omega) hm (hsw.irrefl _) (by omega) (Nat.le_refl _) (hsw.irrefl _)
        (fun j h => by omega) (fun j h1 h2 => by omega)) ?_
      intro r
      xintro g k hk
      obtain ⟨rfl, hk, hg, hlow, hhigh, hso⟩ := hk
      have hl := hg.length_eq
      obtain ⟨A, B, hAB, hA, hAg, hBg⟩ : ∃ A B, tab n g = A ++ B ∧ A.length = k ∧ (∀ a, a ∈ A → comp (f m) a = false) ∧ (∀ b, b ∈ B → comp b (f m) = false) := by
        refine ⟨(tab n g).take k, (tab n g).drop k, by simp, by simp; omega, ?_, ?_⟩
        · intro a ha
          obtain ⟨j, hj, rfl⟩ := List.mem_iff_getElem.1 ha
          rw [List.getElem_take, tab_getElem]
          exact hlow j (by simp at hj; omega)
        · intro b hb
          obtain ⟨j, hj, rfl⟩ := List.mem_iff_getElem.1 hb
          rw [List.getElem_drop, tab_getElem]
          exact hhigh _ (by omega) (by simp at hj; omega)
      have hBl : k + B.length = n := by rw [← hA, ← List.length_append, ← hAB]; simp
      have hord : ∀ a, a ∈ A → ∀ b, b ∈ B → comp b a = false := fun a ha b hb => hsw.negtrans (hBg b hb) (hAg a ha)
      rw [hAB, seg_append, hA]
      have i1 := @ih (i + k) B
      rw [show i + k + B.length = i + n by omega] at i1
      call i1
      intro _
      xintro B' hB'
      have i2 := @ih i A
      rw [hA] at i2
      call i2
      intro _
      xintro A' hA'
      xexists A' ++ B'
      rw [seg_append, hA'.1.length_eq, hA]
      have hord' : ∀ a, a ∈ A' → ∀ b, b ∈ B' → comp b a = false := fun a ha b hb => hord a (hA'.1.mem_iff.1 ha) b (hB'.1.mem_iff.1 hb)
      cancel
      refine ⟨(List.Perm.append hA'.1 hB'.1).trans ?_, hA'.2.1.append hB'.2.1 hord', ?_⟩
      · rw [← hAB]
        exact hg
      · intro hs
        have hs2 := sorted_tab.2 (hso (sorted_tab.1 hs))
        rw [hAB] at hs2
        have h3 := List.pairwise_append.1 hs2
        exact List.pairwise_append.2 ⟨hA'.2.2 h3.1, hB'.2.2 h3.2.1, hord'⟩
    · rw [if_neg hn]
      apply Triple.ret
      xexists vs
      cancel
      exact ⟨List.Perm.refl _, InBlocks.one (Or.inl (by omega)), id⟩

/-! ## the whole sort -/

theorem sort_exact (hsw : StrictWeak comp) (hn : 512 < vs.length) :
    Triple nf (seg c i vs) (sort c i (i + vs.length) comp) (fun _ => ∃ₛ A, ∃ₛ B, ∃ₛ H, ∃ₛ a,
      ⌜((A ++ B).Perm vs ∧ InBlocks comp (A ++ B) ∧ A.length = 512 ∧ (Sorted comp vs → Sorted comp (A ++ B))) ∧ (H ++ [a]).Perm A ∧ Sorted comp (H ++ [a])⌝ ∗
        seg c i (H ++ [a] ++ carry comp a B)) := by
  unfold sort
  rw [if_neg (by omega)]
  refine Triple.bind (introsort_full hsw _) ?_
  intro _
  xintro zs hz
  have hl := hz.1.length_eq
  obtain ⟨A, B, hAB, hA⟩ : ∃ A B, zs = A ++ B ∧ A.length = threshold := ⟨zs.take 512, zs.drop 512, by simp, by simp [threshold]; omega⟩
  subst hAB
  have ht : threshold = 512 := rfl
  rw [← hl]
  refine Triple.post (finalSort_large hsw hA (by intro h; subst h; rw [List.append_nil] at hl; omega)) ?_
  intro _
  xintro H a h
  xexists A, B, H, a
  cancel
  exact ⟨⟨hz.1, hz.2.1, hA, hz.2.2⟩, h⟩

/-- `carry` changes nothing exactly if nothing is out of order -/
theorem carry_same (hsw : StrictWeak comp) {A : List V} {a : V} (hs : Sorted comp (A ++ [a])) : carry comp a ws = ws ↔ Sorted comp (A ++ [a] ++ ws) := by
  constructor
  · intro h
    have := carry_sorted (vs := ws) hsw hs
    rwa [h] at this
  · intro h
    have : Sorted comp (a :: ws) := by
      have := (List.pairwise_append.1 h)
      refine List.pairwise_cons.2 ⟨fun x hx => this.2.2 a (by simp) x hx, this.2.1⟩
    clear h hs
    induction ws generalizing a with
    | nil => rfl
    | cons x xs ih =>
      obtain ⟨h1, h2⟩ := List.pairwise_cons.1 this
      rw [carry, if_neg (by simp [h1 x List.mem_cons_self]), ih h2]

theorem carry_mono (hsw : StrictWeak comp) {a t : V} (ha : comp a t = false) : ((carry comp a ws).filter fun x => comp x t).length ≤ 0 := by
  induction ws generalizing a with
  | nil => simp [carry]
  | cons x xs ih =>
    by_cases hc : comp x a = true
    · rw [carry, if_pos hc, List.filter_cons_of_neg (by simp [ha])]
      exact ih ha
    · rw [carry, if_neg hc]
      have hx : comp x t = false := hsw.negtrans (by simpa using hc) ha
      rw [List.filter_cons_of_neg (by simp [hx])]
      exact ih hx

/-- if something was out of order, the result is not a permutation: an element is lost -/
theorem carry_perm (hsw : StrictWeak comp) {a : V} (h : (carry comp a ws).Perm ws) : carry comp a ws = ws := by
  induction ws generalizing a with
  | nil => rfl
  | cons x xs ih =>
    by_cases hc : comp x a = true
    · exfalso
      have h1 := (h.filter fun y => comp y a).length_eq
      rw [carry, if_pos hc, List.filter_cons_of_neg (by simp [hsw.irrefl]), List.filter_cons_of_pos (by exact hc)] at h1
      have := carry_mono (ws := xs) hsw (hsw.irrefl a)
      simp only [List.length_cons] at h1
      omega
    · rw [carry, if_neg hc] at h ⊢
      rw [ih ((List.perm_cons x).1 h)]

/-- the last element is the largest, every element of the range is at most that -/
theorem carry_last (hsw : StrictWeak comp) {a : V} : ∃ L z, a :: carry comp a ws = L ++ [z] ∧ comp z a = false ∧ ∀ v, v ∈ ws → comp z v = false := by
  induction ws generalizing a with
  | nil => exact ⟨[], a, rfl, hsw.irrefl _, by simp⟩
  | cons x xs ih =>
    by_cases hc : comp x a = true
    · obtain ⟨L, z, h1, h2, h3⟩ := ih (a := a)
      rw [carry, if_pos hc]
      refine ⟨a :: L, z, by rw [h1]; rfl, h2, ?_⟩
      intro v hv
      rcases List.mem_cons.1 hv with rfl | hv
      · exact hsw.negtrans h2 (hsw.asymm hc)
      · exact h3 v hv
    · obtain ⟨L, z, h1, h2, h3⟩ := ih (a := x)
      rw [carry, if_neg hc]
      refine ⟨a :: L, z, by rw [h1]; rfl, hsw.negtrans h2 (by simpa using hc), ?_⟩
      intro v hv
      rcases List.mem_cons.1 hv with rfl | hv
      · exact h2
      · exact h3 v hv

theorem raised_eq {a : V} : raised comp a ws = carry comp a ws := by
  induction ws generalizing a with
  | nil => rfl
  | cons x xs ih => by_cases h : comp x a = true <;> simp [raised, carry, h, ih]

/-- the result is a permutation of the range exactly if the last phase had nothing to do behind the first 512 elements -/
theorem exact_perm (hsw : StrictWeak comp) {A B H : List V} {a : V} (h1 : (A ++ B).Perm vs) (h2 : (H ++ [a]).Perm A) (h3 : Sorted comp (H ++ [a])) :
    (H ++ [a] ++ carry comp a B).Perm vs ↔ Sorted comp (H ++ [a] ++ B) := by
  rw [← carry_same hsw h3]
  constructor
  · intro h
    have := h.trans (h1.symm.trans (h2.symm.append_right B))
    exact carry_perm hsw ((List.perm_append_left_iff _).1 this)
  · intro h
    rw [h]
    exact (h2.append_right B).trans h1

theorem sort_in_order (hsw : StrictWeak comp) (hs : Sorted comp vs) :
    Triple nf (seg c i vs) (sort c i (i + vs.length) comp) (fun _ => ∃ₛ ws, ⌜ws.Perm vs ∧ Sorted comp ws⌝ ∗ seg c i ws) := by
  by_cases hn : vs.length ≤ 512
  · exact sort_small hsw hn
  refine Triple.post (sort_exact hsw (by omega)) ?_
  intro _
  xintro A B H a h
  obtain ⟨⟨h1, h2, h3, h4⟩, h5, h6⟩ := h
  have hAB := List.pairwise_append.1 (h4 hs)
  have hall : Sorted comp (H ++ [a] ++ B) := List.pairwise_append.2 ⟨h6, hAB.2.1, fun x hx b hb => hAB.2.2 x (h5.mem_iff.1 hx) b hb⟩
  rw [(carry_same hsw h6).2 hall]
  xexists H ++ [a] ++ B
  cancel
  exact ⟨(h5.append_right B).trans h1, hall⟩

theorem sorted_ends (hsw : StrictWeak comp) (hs : Sorted comp ws) (hne : ws ≠ []) :
    (∃ x rest, ws = x :: rest ∧ ∀ v, v ∈ ws → comp v x = false) ∧ (∃ y rest, ws = rest ++ [y] ∧ ∀ v, v ∈ ws → comp y v = false) := by
  constructor
  · cases ws with
    | nil => exact absurd rfl hne
    | cons x xs =>
      refine ⟨x, xs, rfl, ?_⟩
      intro v hv
      rcases List.mem_cons.1 hv with rfl | h
      · exact hsw.irrefl _
      · exact (List.pairwise_cons.1 hs).1 v h
  · have hl := List.dropLast_concat_getLast hne
    generalize ws.dropLast = L at hl
    generalize ws.getLast hne = z at hl
    subst hl
    refine ⟨z, L, rfl, ?_⟩
    intro v hv
    rcases List.mem_append.1 hv with h | h
    · exact (List.pairwise_append.1 hs).2.2 v h z (by simp)
    · obtain rfl := List.mem_singleton.1 h
      exact hsw.irrefl _

theorem sort_extremes (hsw : StrictWeak comp) (hne : vs ≠ []) :
    Triple nf (seg c i vs) (sort c i (i + vs.length) comp) (fun _ => ∃ₛ ws, ⌜ws.length = vs.length ∧ Sorted comp ws ∧ (∀ x, x ∈ ws → x ∈ vs) ∧
      (∃ x rest, ws = x :: rest ∧ ∀ v, v ∈ vs → comp v x = false) ∧ (∃ y rest, ws = rest ++ [y] ∧ ∀ v, v ∈ vs → comp y v = false)⌝ ∗ seg c i ws) := by
  by_cases hn : vs.length ≤ 512
  · refine Triple.post (sort_small hsw hn) ?_
    intro _
    xintro ws hws
    xexists ws
    cancel
    have hne' : ws ≠ [] := by intro h; subst h; exact hne (List.nil_perm.1 hws.1)
    obtain ⟨⟨x, r, e1, h1⟩, ⟨y, r', e2, h2⟩⟩ := sorted_ends hsw hws.2 hne'
    exact ⟨hws.1.length_eq, hws.2, fun x hx => hws.1.mem_iff.1 hx, ⟨x, r, e1, fun v hv => h1 v (hws.1.mem_iff.2 hv)⟩, ⟨y, r', e2, fun v hv => h2 v (hws.1.mem_iff.2 hv)⟩⟩
  refine Triple.post (sort_exact hsw (by omega)) ?_
  intro _
  xintro A B H a h
  obtain ⟨⟨h1, h2, h3, h4⟩, h5, h6⟩ := h
  have hs := carry_sorted (vs := B) hsw h6
  obtain ⟨⟨x, r, e1, k1⟩, ⟨y, r', e2, k2⟩⟩ := sorted_ends hsw hs (by simp)
  obtain ⟨w, hw, hw'⟩ := h2.low hsw h3
  obtain ⟨L, z, hz, hz1, hz2⟩ := carry_last (ws := B) (a := a) hsw
  have inA : ∀ v, v ∈ A → v ∈ H ++ [a] ++ carry comp a B := fun v hv => List.mem_append_left _ (h5.mem_iff.2 hv)
  have hzm : z ∈ H ++ [a] ++ carry comp a B := by
    rw [List.append_assoc, List.singleton_append, hz]
    simp
  have hp : ∃ ws, (ws.length = vs.length ∧ Sorted comp ws ∧ (∀ x, x ∈ ws → x ∈ vs) ∧
      (∃ x rest, ws = x :: rest ∧ ∀ v, v ∈ vs → comp v x = false) ∧ (∃ y rest, ws = rest ++ [y] ∧ ∀ v, v ∈ vs → comp y v = false)) ∧ ws = H ++ [a] ++ carry comp a B := by
    refine ⟨_, ⟨?_, hs, ?_, ⟨x, r, e1, ?_⟩, ⟨y, r', e2, ?_⟩⟩, rfl⟩
    · rw [List.length_append, h5.length_eq, carry_length, ← h1.length_eq, List.length_append]
    · intro x hx
      refine h1.mem_iff.1 ?_
      rcases List.mem_append.1 hx with h1 | h1
      · exact List.mem_append_left _ (h5.mem_iff.1 h1)
      · rcases carry_mem h1 with h2 | h2
        · subst h2
          exact List.mem_append_left _ (h5.mem_iff.1 (by simp))
        · exact List.mem_append_right _ h2
    · intro v hv
      rcases List.mem_append.1 (h1.mem_iff.2 hv) with h | h
      · exact k1 v (inA v h)
      · exact hsw.negtrans (hw' v h) (k1 w (inA w hw))
    · intro v hv
      rcases List.mem_append.1 (h1.mem_iff.2 hv) with h | h
      · exact k2 v (inA v h)
      · exact hsw.negtrans (k2 z hzm) (hz2 v h)
  obtain ⟨ws, hp, hws⟩ := hp
  rw [← hws]
  xexists ws
  cancel

end CC.Algo
