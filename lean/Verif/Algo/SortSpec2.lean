import Verif.Algo.SortSpec
/-!
# Proofs for `c_sorting.c`: insertion sort and introsort
-/
namespace CC.Algo
open CC CC.Tac
variable {V : Type} {nf : Prop} {P : HProp V} {c d : Slots} {i j n h : Nat} {vs us : List V} {f g : Nat → V} {comp : V → V → Bool}

theorem append_reads {A B : List V} {v : V} : Reads (seg c i (A ++ v :: B)) (c (i + A.length)) v := by
  have := (seg_rng (c := c) (i := i) (vs := A ++ v :: B)) A.length (by simp)
  simpa using this

/-- the loop of the linear insertion, the value being a copy -/
theorem ulLoop_spec (hsw : StrictWeak comp) {a y v : V} {A : List V} (hs : Sorted comp (a :: A)) (hv : comp v a = false) :
    Triple nf (seg c i (a :: A ++ [y])) (ulLoop c (pure v) comp (i + (a :: A).length) (i + A.length))
      (fun l => ∃ₛ A1, ∃ₛ A2, ∃ₛ z, ⌜a :: A = A1 ++ A2 ∧ l = i + A1.length ∧ (∀ x, x ∈ A1 → comp v x = false) ∧ (∀ x, x ∈ A2 → comp v x = true)⌝ ∗
        seg c i (A1 ++ z :: A2)) := by
  induction hr : A.reverse generalizing A y with
  | nil =>
    obtain rfl : A = [] := by simpa using hr
    rw [ulLoop, pure_bind]
    refine ldV_reads (seg_rng.head) ?_
    rw [if_neg (by simp [hv])]
    apply Triple.ret
    xexists [a], [], y
    cancel
    refine ⟨rfl, rfl, ?_, by simp⟩
    intro x hx; simp at hx; subst hx; exact hv
  | cons b R ih =>
    obtain rfl : A = R.reverse ++ [b] := by rw [← List.reverse_reverse A, hr, List.reverse_cons]
    generalize R.reverse = B at *
    rw [ulLoop, pure_bind]
    have hrb : Reads (seg c i (a :: (B ++ [b]) ++ [y])) (c (i + (B ++ [b]).length)) b := by
      have := append_reads (c := c) (i := i) (A := a :: B) (B := [y]) (v := b)
      simpa using this
    refine ldV_reads hrb ?_
    by_cases hlt : comp v b = true
    · rw [if_pos hlt]
      refine Triple.bind (Q := fun _ => seg c i (a :: B ++ [b]) ∗ pts (c (i + (a :: (B ++ [b])).length)) (.obj (some b))) ?_ ?_
      · refine Triple.pre (P' := pts (c (i + (a :: (B ++ [b])).length)) (.obj (some y)) ∗ seg c i (a :: B ++ [b])) ?_ ?_
        · rw [seg_append, seg_one]; cancel
        refine Triple.post (asg_pts (v := b) ?_) ?_
        · apply Reads.right
          have := append_reads (c := c) (i := i) (A := a :: B) (B := []) (v := b)
          simpa using this
        · intro _; cancel
      intro _
      rw [show i + (B ++ [b]).length = (i + B.length) + 1 by simp; omega]
      apply dec_spec
      rw [show i + B.length + 1 = i + (a :: B).length by simp; omega]
      have hsB : Sorted comp (a :: B) := by
        have : Sorted comp ((a :: B) ++ [b]) := hs
        exact (List.pairwise_append.1 this).1
      have hrB : B.reverse = R := by simpa using hr
      call (@ih b B hsB hrB)
      · intro l
        xintro A1 A2 z hh
        obtain ⟨h1, h2, h3, h4⟩ := hh
        xexists A1, A2 ++ [b], z
        rw [show A1 ++ z :: (A2 ++ [b]) = (A1 ++ z :: A2) ++ [b] by simp, seg_append (xs := A1 ++ z :: A2), seg_one]
        have hl : (A1 ++ z :: A2).length = (a :: (B ++ [b])).length := by
          have := congrArg List.length h1
          simp only [List.length_append, List.length_cons, List.length_nil] at this ⊢
          omega
        rw [hl]
        cancel
        refine ⟨?_, h2, h3, ?_⟩
        · rw [← List.append_assoc, ← h1]; rfl
        · intro x hx
          rcases List.mem_append.1 hx with h | h
          · exact h4 x h
          · simp at h; subst h; exact hlt
    · rw [if_neg hlt]
      rw [Bool.not_eq_true] at hlt
      apply Triple.ret
      xexists a :: (B ++ [b]), [], y
      cancel
      refine ⟨by simp, rfl, ?_, by simp⟩
      intro x hx
      have hs' : Sorted comp ((a :: B) ++ [b]) := hs
      have hx' : x ∈ (a :: B) ++ [b] := hx
      rcases List.mem_append.1 hx' with h | h
      · exact hsw.negtrans hlt ((List.pairwise_append.1 hs').2.2 x h b (by simp))
      · simp at h; subst h; exact hlt

theorem sorted_insert (hsw : StrictWeak comp) {v : V} {A1 A2 : List V} (hs : Sorted comp (A1 ++ A2)) (h1 : ∀ x, x ∈ A1 → comp v x = false)
    (h2 : ∀ x, x ∈ A2 → comp v x = true) : Sorted comp (A1 ++ v :: A2) := by
  have := List.pairwise_append.1 hs
  refine List.pairwise_append.2 ⟨this.1, List.pairwise_cons.2 ⟨fun x hx => hsw.asymm (h2 x hx), this.2.1⟩, ?_⟩
  intro x hx y hy
  rcases List.mem_cons.1 hy with rfl | h
  · exact h1 x hx
  · exact this.2.2 x hx y h

theorem linearSort_spec (hsw : StrictWeak comp) {v : V} {A : List V} (hne : A ≠ []) (hs : Sorted comp A) :
    Triple nf (seg c i (A ++ [v])) (linearSort c i (i + A.length) comp)
      (fun _ => ∃ₛ ws, ⌜ws.Perm (A ++ [v]) ∧ Sorted comp ws⌝ ∗ seg c i ws) := by
  obtain ⟨a, A, rfl⟩ := List.exists_cons_of_ne_nil hne
  unfold linearSort
  refine ldV_reads append_reads ?_
  refine ldV_reads seg_rng.head ?_
  by_cases hlt : comp v a = true
  · rw [if_pos hlt]
    unfold copyBackward
    call (copyBackwardLoop_right (nf := nf) (c := c) (i := i) (vs := a :: A) (X := [v]) (n := 0))
    intro r
    xintro hr
    have hov : overBack (a :: A ++ [v]) (a :: A) = a :: (a :: A) := by simp [overBack]
    rw [hov, seg_cons]
    call (wr_pts (nf := nf) (l := c i) (v := a) (w := v))
    intro _
    xexists v :: a :: A
    rw [seg_cons]
    cancel
    refine ⟨(List.perm_append_comm (l₁ := [v]) (l₂ := a :: A)), ?_⟩
    refine List.pairwise_cons.2 ⟨?_, hs⟩
    intro x hx
    rcases List.mem_cons.1 hx with rfl | h
    · exact hsw.asymm hlt
    · exact hsw.negtrans ((List.pairwise_cons.1 hs).1 x h) (hsw.asymm hlt)
  · rw [if_neg hlt]
    rw [Bool.not_eq_true] at hlt
    unfold unguardedLinear
    rw [show i + (a :: A).length = i + A.length + 1 by simp; omega]
    apply dec_spec
    rw [show i + A.length + 1 = i + (a :: A).length by simp; omega]
    call (ulLoop_spec (nf := nf) (c := c) (i := i) (a := a) (y := v) (v := v) (A := A) hsw hs hlt)
    intro l
    xintro A1 A2 z hh
    obtain ⟨h1, h2, h3, h4⟩ := hh
    subst h2
    rw [pure_bind, seg_append, seg_cons]
    call (wr_pts (nf := nf) (l := c (i + A1.length)) (v := z) (w := v))
    intro _
    xexists A1 ++ v :: A2
    rw [seg_append, seg_cons]
    cancel
    refine ⟨?_, sorted_insert hsw (h1 ▸ hs) h3 h4⟩
    rw [h1]
    refine List.perm_middle.trans ?_
    exact (List.perm_append_comm (l₁ := [v]) (l₂ := A1 ++ A2))

theorem insertionLoop_spec (hsw : StrictWeak comp) {A B : List V} (hne : A ≠ []) (hs : Sorted comp A) :
    Triple nf (seg c i (A ++ B)) (insertionLoop c comp i (i + A.length) (i + A.length + B.length))
      (fun _ => ∃ₛ ws, ⌜ws.Perm (A ++ B) ∧ Sorted comp ws⌝ ∗ seg c i ws) := by
  induction B generalizing A with
  | nil =>
    rw [insertionLoop, if_neg (by simp)]
    apply Triple.ret
    xexists A
    simp only [List.append_nil]
    cancel
  | cons b B ih =>
    rw [insertionLoop, if_pos (by simp), show A ++ b :: B = (A ++ [b]) ++ B by simp, seg_append (xs := A ++ [b])]
    call (linearSort_spec (nf := nf) (c := c) (i := i) (v := b) hsw hne hs)
    intro _
    xintro ws hws
    have hl := hws.1.length_eq
    have := @ih ws (by intro h; subst h; simp at hl) hws.2
    rw [hl, show i + (A ++ [b]).length = i + A.length + 1 by simp; omega, show i + A.length + 1 + B.length = i + A.length + (b :: B).length by simp; omega] at this
    refine Triple.pre ?_ (Triple.post this ?_)
    · rw [seg_append, hl]; cancel
    · intro _
      xintro zs hz
      xexists zs
      cancel
      exact ⟨hz.1.trans (List.Perm.append_right _ hws.1), hz.2⟩

theorem insertionSort_spec (hsw : StrictWeak comp) :
    Triple nf (seg c i vs) (insertionSort c i (i + vs.length) comp) (fun _ => ∃ₛ ws, ⌜ws.Perm vs ∧ Sorted comp ws⌝ ∗ seg c i ws) := by
  unfold insertionSort
  cases vs with
  | nil =>
    rw [if_pos (by simp)]
    apply Triple.ret
    xexists []
    cancel
    exact ⟨List.Perm.refl _, List.Pairwise.nil⟩
  | cons v vs =>
    rw [if_neg (by simp)]
    have := insertionLoop_spec (nf := nf) (c := c) (i := i) (A := [v]) (B := vs) hsw (by simp) (List.pairwise_singleton _ _)
    rw [show i + [v].length + vs.length = i + (v :: vs).length by simp; omega] at this
    exact this

/-- what the second phase of the final insertion sort makes of the elements after the first 512: each becomes the larger one of it and its predecessor -/
def carry (comp : V → V → Bool) (a : V) : List V → List V
  | [] => []
  | x :: xs => (if comp x a then a else x) :: carry comp (if comp x a then a else x) xs

theorem carry_length {a : V} : (carry comp a vs).length = vs.length := by
  induction vs generalizing a with
  | nil => rfl
  | cons x xs ih => simp [carry, ih]

theorem carry_mem {a x : V} (h : x ∈ carry comp a vs) : x = a ∨ x ∈ vs := by
  induction vs generalizing a with
  | nil => simp [carry] at h
  | cons y ys ih =>
    simp only [carry, List.mem_cons] at h ⊢
    rcases h with h | h
    · by_cases hc : comp y a = true
      · rw [if_pos hc] at h; exact Or.inl h
      · rw [if_neg hc] at h; exact Or.inr (Or.inl h)
    · rcases ih h with h | h
      · by_cases hc : comp y a = true
        · rw [if_pos hc] at h; exact Or.inl h
        · rw [if_neg hc] at h; exact Or.inr (Or.inl h)
      · exact Or.inr (Or.inr h)

theorem carry_sorted (hsw : StrictWeak comp) {A : List V} {a : V} (hs : Sorted comp (A ++ [a])) : Sorted comp (A ++ [a] ++ carry comp a vs) := by
  induction vs generalizing A a with
  | nil => simpa [carry] using hs
  | cons y ys ih =>
    have hstep : Sorted comp ((A ++ [a]) ++ [if comp y a then a else y]) := by
      refine List.pairwise_append.2 ⟨hs, List.pairwise_singleton _ _, ?_⟩
      intro x hx z hz
      simp only [List.mem_singleton] at hz
      subst hz
      have hxa : comp a x = false := by
        rcases List.mem_append.1 hx with h | h
        · exact (List.pairwise_append.1 hs).2.2 x h a (by simp)
        · simp at h; subst h; exact hsw.irrefl _
      by_cases hc : comp y a = true
      · rw [if_pos hc]; exact hxa
      · rw [if_neg hc]; rw [Bool.not_eq_true] at hc; exact hsw.negtrans hc hxa
    have := ih hstep
    simpa [carry] using this

theorem carryStep_spec (hsw : StrictWeak comp) {A : List V} {a' a x : V} (hs : Sorted comp (A ++ [a', a])) :
    Triple nf (seg c i (A ++ [a', a] ++ [x])) (unguardedLinear c (ldV (c (i + (A.length + 2)))) comp (i + (A.length + 2)))
      (fun _ => seg c i (A ++ [a', a] ++ [if comp x a then a else x])) := by
  have r1 : ∀ z, Reads (seg c i (A ++ [a', a] ++ [z])) (c (i + (A.length + 2))) z := by
    intro z
    have := append_reads (c := c) (i := i) (A := A ++ [a', a]) (B := []) (v := z)
    simpa using this
  have r2 : ∀ z, Reads (seg c i (A ++ [a', a] ++ [z])) (c (i + (A.length + 1))) a := by
    intro z
    have := append_reads (c := c) (i := i) (A := A ++ [a']) (B := [z]) (v := a)
    simpa using this
  have r3 : ∀ z, Reads (seg c i (A ++ [a', a] ++ [z])) (c (i + A.length)) a' := by
    intro z
    have := append_reads (c := c) (i := i) (A := A) (B := [a, z]) (v := a')
    simpa using this
  unfold unguardedLinear
  rw [show i + (A.length + 2) = i + A.length + 1 + 1 by omega] at r1 ⊢
  rw [show i + (A.length + 1) = i + A.length + 1 by omega] at r2
  apply dec_spec
  have hw : ∀ z w, Triple nf (seg c i (A ++ [a', a] ++ [z])) (wr (c (i + A.length + 1 + 1)) w) (fun _ => seg c i (A ++ [a', a] ++ [w])) := by
    intro z w
    rw [seg_append, seg_append (ys := [w]), seg_one, seg_one, show i + (A ++ [a', a]).length = i + A.length + 1 + 1 by simp; omega]
    call (wr_pts (nf := nf) (l := c (i + A.length + 1 + 1)) (v := z) (w := w))
    intro _
    cancel
  have hw2 : ∀ z w, Triple nf (seg c i (A ++ [a', z, w])) (wr (c (i + A.length + 1)) a) (fun _ => seg c i (A ++ [a', a, w])) := by
    intro z w
    simp only [seg_append, seg_cons, seg_nil, sep_emp]
    call (wr_pts (nf := nf) (l := c (i + A.length + 1)) (v := z) (w := a))
    intro _
    cancel
  rw [ulLoop, bind_assoc]
  refine ldV_reads (r1 x) ?_
  rw [bind_assoc]
  refine ldV_reads (r2 x) ?_
  by_cases hc : comp x a = true
  · rw [if_pos hc, if_pos hc, bind_assoc]
    refine Triple.bind (Q := fun _ => seg c i (A ++ [a', a] ++ [a])) ?_ ?_
    · unfold asg
      exact ldV_reads (r2 x) (hw x a)
    intro _
    rw [bind_assoc]
    apply dec_spec
    rw [ulLoop, bind_assoc]
    refine ldV_reads (r1 a) ?_
    rw [bind_assoc]
    refine ldV_reads (r3 a) ?_
    have hle : comp a a' = false := by
      have := (List.pairwise_append.1 hs).2.1
      exact (List.pairwise_cons.1 this).1 a (by simp)
    rw [if_neg (by simp [hle]), pure_bind]
    refine ldV_reads (r1 a) ?_
    have := hw2 a a
    simpa using this
  · rw [if_neg hc, if_neg hc, pure_bind]
    refine ldV_reads (r1 x) ?_
    exact hw x x

theorem unguardedInsertion_spec (hsw : StrictWeak comp) {A : List V} {a' a : V} (hs : Sorted comp (A ++ [a', a])) :
    Triple nf (seg c i (A ++ [a', a] ++ vs)) (unguardedInsertion c comp (i + (A.length + 2)) (i + (A.length + 2) + vs.length))
      (fun _ => seg c i (A ++ [a', a] ++ carry comp a vs)) := by
  induction vs generalizing A a' a with
  | nil =>
    rw [unguardedInsertion, if_neg (by simp)]
    apply Triple.ret
    simp only [carry]
    cancel
  | cons x xs ih =>
    rw [unguardedInsertion, if_pos (by simp), show A ++ [a', a] ++ x :: xs = (A ++ [a', a] ++ [x]) ++ xs by simp, seg_append]
    call (carryStep_spec (nf := nf) (c := c) (i := i) (A := A) (a' := a') (a := a) (x := x) hsw hs)
    intro _
    generalize hy : (if comp x a = true then a else x) = y
    have hs' : Sorted comp ((A ++ [a']) ++ [a, y]) := by
      have := carry_sorted (vs := [x]) hsw (A := A ++ [a']) (a := a) (by simpa using hs)
      simp only [carry, hy] at this
      simpa using this
    have := @ih (A ++ [a']) a y hs'
    rw [show i + ((A ++ [a']).length + 2) = i + (A.length + 2) + 1 by simp; omega, show i + (A.length + 2) + 1 + xs.length = i + (A.length + 2) + (x :: xs).length by simp; omega] at this
    refine Triple.pre ?_ (Triple.post this ?_)
    · rw [show A ++ [a'] ++ [a, y] ++ xs = (A ++ [a', a] ++ [y]) ++ xs by simp, seg_append (xs := A ++ [a', a] ++ [y])]
      simp only [List.length_append, List.length_cons, List.length_nil]
      cancel
    · intro _
      simp only [carry, hy]
      rw [show A ++ [a'] ++ [a, y] ++ carry comp y xs = A ++ [a', a] ++ y :: carry comp y xs by simp]
      cancel

theorem finalSort_small (hsw : StrictWeak comp) (hn : vs.length ≤ threshold) :
    Triple nf (seg c i vs) (finalSort c i (i + vs.length) comp) (fun _ => ∃ₛ ws, ⌜ws.Perm vs ∧ Sorted comp ws⌝ ∗ seg c i ws) := by
  unfold finalSort
  rw [if_neg (by omega)]
  exact insertionSort_spec hsw

/-- the last element of a nonempty list, cut off together with its predecessor -/
theorem split_last2 {H : List V} (h : 2 ≤ H.length) : ∃ A a' a, H = A ++ [a', a] := by
  rcases hr : H.reverse with _ | ⟨a, _ | ⟨a', R⟩⟩
  · have : H = [] := by simpa using hr
    subst this; simp at h
  · have : H = [a] := by rw [← List.reverse_reverse H, hr]; rfl
    subst this; simp at h
  · refine ⟨R.reverse, a', a, ?_⟩
    rw [← List.reverse_reverse H, hr]; simp

theorem finalSort_large (hsw : StrictWeak comp) {A B : List V} (hA : A.length = threshold) (hB : B ≠ []) :
    Triple nf (seg c i (A ++ B)) (finalSort c i (i + (A ++ B).length) comp)
      (fun _ => ∃ₛ H, ∃ₛ a, ⌜(H ++ [a]).Perm A ∧ Sorted comp (H ++ [a])⌝ ∗ seg c i (H ++ [a] ++ carry comp a B)) := by
  unfold finalSort
  have hBl := List.length_pos_iff.2 hB
  rw [if_pos (by simp; omega), seg_append]
  have := insertionSort_spec (nf := nf) (c := c) (i := i) (vs := A) hsw
  rw [hA] at this
  call this
  intro _
  xintro ws hws
  have hl := hws.1.length_eq
  obtain ⟨H, a', a, rfl⟩ := split_last2 (H := ws) (by rw [hl, hA]; decide)
  have h2 := unguardedInsertion_spec (nf := nf) (c := c) (i := i) (A := H) (a' := a') (a := a) (vs := B) hsw hws.2
  have hH : H.length + 2 = threshold := by rw [← hA, ← hl]; simp
  rw [hH] at h2
  rw [show i + (A ++ B).length = i + threshold + B.length by simp [hA]; omega]
  refine Triple.pre ?_ (Triple.post h2 ?_)
  · rw [seg_append (xs := H ++ [a', a]), hl]; cancel
  · intro _
    xexists H ++ [a'], a
    rw [show H ++ [a'] ++ [a] = H ++ [a', a] by simp]
    cancel

/-! ## partition and introsort -/

theorem upScan_spec {pivot : V} {p u : Nat} (hpu : p ≤ u) (hu : u < n) (hg : comp (f u) pivot = false) :
    Triple nf (seg c i (tab n f)) (upScan c comp pivot (i + p))
      (fun r => ∃ₛ k, ⌜r = i + k ∧ p ≤ k ∧ k ≤ u ∧ comp (f k) pivot = false⌝ ∗ seg c i (tab n f)) := by
  induction hm : u - p generalizing p with
  | zero =>
    obtain rfl : p = u := by omega
    rw [upScan]
    refine test_reads (tab_reads hu) ?_
    rw [if_neg (by simp [hg])]
    apply Triple.ret
    xexists p
    cancel
  | succ m ih =>
    rw [upScan]
    refine test_reads (tab_reads (k := p) (by omega)) ?_
    by_cases hc : comp (f p) pivot = true
    · rw [if_pos hc]
      refine Triple.post (ih (p := p + 1) (by omega) (by omega)) ?_
      intro r
      xintro k hk
      xexists k
      cancel
      exact ⟨hk.1, by omega, hk.2.2⟩
    · rw [if_neg hc]
      apply Triple.ret
      xexists p
      cancel
      exact ⟨rfl, Nat.le_refl _, hpu, by simpa using hc⟩

theorem downScan_spec {pivot : V} {q w : Nat} (hwq : w ≤ q) (hq : q < n) (hg : comp pivot (f w) = false) :
    Triple nf (seg c i (tab n f)) (downScan c comp pivot (i + q))
      (fun r => ∃ₛ k, ⌜r = i + k ∧ w ≤ k ∧ k ≤ q ∧ comp pivot (f k) = false⌝ ∗ seg c i (tab n f)) := by
  induction hm : q - w generalizing q with
  | zero =>
    obtain rfl : q = w := by omega
    rw [downScan]
    refine test_reads (tab_reads hq) ?_
    rw [if_neg (by simp [hg])]
    apply Triple.ret
    xexists q
    cancel
  | succ m ih =>
    rw [downScan]
    refine test_reads (tab_reads hq) ?_
    by_cases hc : comp pivot (f q) = true
    · rw [if_pos hc]
      obtain ⟨q', rfl⟩ : ∃ q', q = q' + 1 := ⟨q - 1, by omega⟩
      rw [show i + (q' + 1) = i + q' + 1 by omega]
      apply dec_spec
      refine Triple.post (ih (q := q') (by omega) (by omega) (by omega)) ?_
      intro r
      xintro k hk
      xexists k
      cancel
      exact ⟨hk.1, hk.2.1, by omega, hk.2.2.2⟩
    · rw [if_neg hc]
      apply Triple.ret
      xexists q
      cancel
      exact ⟨rfl, hwq, Nat.le_refl _, by simpa using hc⟩

theorem hoare_spec {pivot : V} {p q u w : Nat} (hpu : p ≤ u) (hu : u < n) (hgu : comp (f u) pivot = false) (hwq : w < q) (hq : q ≤ n) (hgw : comp pivot (f w) = false) :
    Triple nf (seg c i (tab n f)) (hoare c comp pivot (i + p) (i + q))
      (fun r => ∃ₛ g, ∃ₛ k, ⌜r = i + k ∧ k < n ∧ (tab n g).Perm (tab n f)⌝ ∗ seg c i (tab n g)) := by
  induction q using Nat.strongRecOn generalizing p u w f with
  | _ q ih =>
    rw [hoare]
    refine Triple.bind (upScan_spec hpu hu hgu) ?_
    intro r
    xintro k hk
    obtain ⟨rfl, hk1, hk2, hk3⟩ := hk
    obtain ⟨q', rfl⟩ : ∃ q', q = q' + 1 := ⟨q - 1, by omega⟩
    rw [show i + (q' + 1) = i + q' + 1 by omega]
    apply dec_spec
    refine Triple.bind (downScan_spec (w := w) (by omega) (by omega) hgw) ?_
    intro r
    xintro l hl
    obtain ⟨rfl, hl1, hl2, hl3⟩ := hl
    by_cases hlt : i + k < i + l
    · rw [if_pos hlt]
      refine Triple.bind (swp_tab (by omega) (by omega)) ?_
      intro _
      rw [show i + k + 1 = i + (k + 1) by omega]
      refine Triple.post (ih l (by omega) (p := k + 1) (u := l) (w := k) (by omega) (by omega) (by rw [swapf_right]; exact hk3) (by omega) (by omega)
        (by rw [swapf_left]; exact hl3)) ?_
      intro r
      xintro g m hg
      xexists g, m
      cancel
      exact ⟨hg.1, hg.2.1, hg.2.2.trans (tab_swapf_perm (by omega) (by omega))⟩
    · rw [if_neg hlt]
      apply Triple.ret
      xexists f, k
      cancel
      exact ⟨rfl, by omega, List.Perm.refl _⟩

theorem median_spec {x y z : Loc} {a b e : V} (h1 : Reads P x a) (h2 : Reads P y b) (h3 : Reads P z e) :
    Triple nf P (median x y z comp) (fun r => ⌜r = a ∨ r = b ∨ r = e⌝ ∗ P) := by
  have fin : ∀ {l v}, Reads P l v → (v = a ∨ v = b ∨ v = e) → Triple nf P (ldV l) (fun r => ⌜r = a ∨ r = b ∨ r = e⌝ ∗ P) := by
    intro l v hr hv
    rw [← bind_pure (ldV l)]
    refine ldV_reads hr ?_
    apply Triple.ret
    cancel
  unfold median
  refine cmp_reads h1 h2 ?_
  split
  · refine cmp_reads h2 h3 ?_
    split
    · exact fin h2 (by simp)
    · refine cmp_reads h1 h3 ?_
      split
      · exact fin h3 (by simp)
      · exact fin h1 (by simp)
  · refine cmp_reads h1 h3 ?_
    split
    · exact fin h1 (by simp)
    · refine cmp_reads h2 h3 ?_
      split
      · exact fin h3 (by simp)
      · exact fin h2 (by simp)

theorem introsort_spec (hsw : StrictWeak comp) (depth : Nat) :
    Triple nf (seg c i vs) (introsort c comp depth i (i + vs.length)) (fun _ => ∃ₛ ws, ⌜ws.Perm vs⌝ ∗ seg c i ws) := by
  induction depth generalizing i vs with
  | zero =>
    rw [introsort]
    by_cases hn : i + vs.length - i > threshold
    · rw [if_pos hn]
      have := partialSort_spec (nf := nf) (c := c) (i := i) (A := vs) (B := []) hsw
      simp only [List.append_nil, List.length_nil, Nat.add_zero] at this
      refine Triple.post this ?_
      intro _
      xintro A' B' h
      xexists A' ++ B'
      cancel
      exact h.1
    · rw [if_neg hn]
      apply Triple.ret
      xexists vs
      cancel
  | succ depth ih =>
    rw [introsort]
    by_cases hn : i + vs.length - i > threshold
    · rw [if_pos hn]
      have h512 : (512 : Nat) < vs.length := by have : threshold = 512 := rfl; omega
      obtain ⟨f, hf⟩ := exists_tab (vs := vs) (by intro h; subst h; simp at h512)
      generalize hnn : vs.length = n at *
      subst hf
      refine Triple.bind (median_spec (tab_reads (k := 0) (by omega)) (tab_reads (k := (i + n - i) / 2) (by omega))
        (by have := tab_reads (V := V) (c := c) (i := i) (n := n) (f := f) (k := n - 1) (by omega); rwa [show i + (n - 1) = i + n - 1 by omega] at this)) ?_
      intro pivot
      xintro hp
      obtain ⟨m, hm, rfl⟩ : ∃ m, m < n ∧ pivot = f m := by
        rcases hp with h | h | h
        · exact ⟨_, by omega, h⟩
        · exact ⟨_, by omega, h⟩
        · exact ⟨_, by omega, h⟩
      refine Triple.bind (hoare_spec (p := 0) (q := n) (u := m) (w := m) (by omega) hm (hsw.irrefl _) (by omega) (Nat.le_refl _) (hsw.irrefl _)) ?_
      intro r
      xintro g k hk
      obtain ⟨rfl, hk, hg⟩ := hk
      have hl := hg.length_eq
      obtain ⟨A, B, hAB, hA⟩ : ∃ A B, tab n g = A ++ B ∧ A.length = k := ⟨(tab n g).take k, (tab n g).drop k, by simp, by simp; omega⟩
      have hBl : k + B.length = n := by rw [← hA, ← List.length_append, ← hAB]; simp
      rw [hAB, seg_append, hA]
      have i1 := @ih (i + k) B
      rw [show i + k + B.length = i + n by omega] at i1
      call i1
      intro _
      xintro B' hB'
      have i2 := @ih i A
      rw [hA] at i2
      call i2
      intro _
      xintro A' hA'
      xexists A' ++ B'
      rw [seg_append, hA'.length_eq, hA]
      cancel
      refine (List.Perm.append hA' hB').trans ?_
      rw [← hAB]
      exact hg
    · rw [if_neg hn]
      apply Triple.ret
      xexists vs
      cancel

theorem introsort_small {depth : Nat} {first last : Nat} (h : last - first ≤ threshold) : introsort (V := V) c comp depth first last = pure () := by
  cases depth <;> rw [introsort, if_neg (by omega)]

theorem sort_small (hsw : StrictWeak comp) (hn : vs.length ≤ 512) :
    Triple nf (seg c i vs) (sort c i (i + vs.length) comp) (fun _ => ∃ₛ ws, ⌜ws.Perm vs ∧ Sorted comp ws⌝ ∗ seg c i ws) := by
  unfold sort
  by_cases h0 : vs = []
  · subst h0
    rw [if_pos (by simp)]
    apply Triple.ret
    xexists []
    cancel
    exact ⟨List.Perm.refl _, List.Pairwise.nil⟩
  have := List.length_pos_iff.2 h0
  rw [if_neg (by omega), introsort_small (by show _ ≤ 512; omega), pure_bind]
  exact finalSort_small hsw hn

theorem sort_any (hsw : StrictWeak comp) :
    Triple nf (seg c i vs) (sort c i (i + vs.length) comp) (fun _ => ∃ₛ ws, ⌜ws.length = vs.length ∧ Sorted comp ws ∧ (∀ x, x ∈ ws → x ∈ vs)⌝ ∗ seg c i ws) := by
  by_cases hn : vs.length ≤ 512
  · refine Triple.post (sort_small hsw hn) ?_
    intro _
    xintro ws hws
    xexists ws
    cancel
    exact ⟨hws.1.length_eq, hws.2, fun x hx => hws.1.mem_iff.1 hx⟩
  unfold sort
  rw [if_neg (by omega)]
  refine Triple.bind (introsort_spec hsw _) ?_
  intro _
  xintro zs hz
  have hl := hz.length_eq
  obtain ⟨A, B, hAB, hA⟩ : ∃ A B, zs = A ++ B ∧ A.length = threshold := ⟨zs.take 512, zs.drop 512, by simp, by simp [threshold]; omega⟩
  subst hAB
  have hAB := List.length_append (as := A) (bs := B)
  have ht : threshold = 512 := rfl
  rw [← hl]
  refine Triple.post (finalSort_large hsw hA (by intro h; subst h; rw [List.append_nil] at hl; omega)) ?_
  intro _
  xintro H a h
  xexists H ++ [a] ++ carry comp a B
  cancel
  refine ⟨?_, carry_sorted hsw h.2, ?_⟩
  · have := h.1.length_eq
    rw [List.length_append, this, carry_length, hl, ← hl, hAB]
  · intro x hx
    refine hz.mem_iff.1 ?_
    rcases List.mem_append.1 hx with h1 | h1
    · exact List.mem_append_left _ (h.1.mem_iff.1 h1)
    · rcases carry_mem h1 with h2 | h2
      · subst h2
        exact List.mem_append_left _ (h.1.mem_iff.1 (by simp))
      · exact List.mem_append_right _ h2

end CC.Algo
