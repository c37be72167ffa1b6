import Verif.Algo.Sort
/-!
# Proofs for `c_sorting.c`: partial sorts
-/
namespace CC.Algo
open CC CC.Tac
variable {V : Type} {nf : Prop} {P : HProp V} {c d : Slots} {i j n h : Nat} {vs us : List V} {f g : Nat → V} {comp : V → V → Bool}

theorem IsHeap.top (hsw : StrictWeak comp) {a : V} (hh : IsHeap comp (a :: vs)) : ∀ x, x ∈ a :: vs → comp a x = false := by
  obtain ⟨f, hf⟩ := exists_tab (vs := a :: vs) (by simp)
  intro x hx
  have ha : a = f 0 := by
    have := congrArg (fun l => l[0]?) hf
    simp only [List.getElem?_cons_zero] at this
    rw [tab_getElem? (by simp)] at this
    exact Option.some.inj this
  rw [hf] at hx hh
  obtain ⟨k, hk, rfl⟩ := mem_tab.1 hx
  rw [ha]
  exact (isHeap_tab.1 hh).top hsw hk

theorem partialSortLoop_spec (hsw : StrictWeak comp) {H B1 B2 : List V} (hne : H ≠ []) (hH : IsHeap comp H) (hB : ∀ b, b ∈ B1 → ∀ x, x ∈ H → comp b x = false) :
    Triple nf (seg c i (H ++ (B1 ++ B2))) (partialSortLoop c comp i (i + H.length) (i + H.length + (B1 ++ B2).length) (i + H.length + B1.length))
      (fun _ => ∃ₛ H', ∃ₛ B', ⌜(H' ++ B').Perm (H ++ (B1 ++ B2)) ∧ H'.length = H.length ∧ IsHeap comp H' ∧ (∀ b, b ∈ B' → ∀ x, x ∈ H' → comp b x = false)⌝ ∗
        seg c i (H' ++ B')) := by
  induction B2 generalizing H B1 with
  | nil =>
    rw [partialSortLoop, if_neg (by simp)]
    apply Triple.ret
    xexists H, B1
    simp only [List.append_nil]
    cancel
  | cons x B2 ih =>
    rw [partialSortLoop, if_pos (by simp)]
    obtain ⟨a, H, rfl⟩ := List.exists_cons_of_ne_nil hne
    have hr1 : Reads (seg c i (a :: H ++ (B1 ++ x :: B2))) (c (i + (a :: H).length + B1.length)) x := by
      have := (seg_rng (c := c) (i := i) (vs := a :: H ++ (B1 ++ x :: B2))) ((a :: H).length + B1.length) (by simp <;> omega)
      rw [← Nat.add_assoc] at this
      have he : ∀ hh, (a :: H ++ (B1 ++ x :: B2))[(a :: H).length + B1.length]'hh = x := by
        intro hh
        have : (a :: H ++ (B1 ++ x :: B2))[(a :: H).length + B1.length]? = some x := by
          rw [← List.append_assoc, ← List.length_append, List.getElem?_append_right (Nat.le_refl _)]
          simp
        rw [List.getElem?_eq_getElem hh] at this
        exact Option.some.inj this
      rwa [he] at this
    refine cmp_reads hr1 seg_rng.head ?_
    by_cases hlt : comp x a = true
    · rw [if_pos hlt]
      rw [seg_append, seg_append (xs := B1), seg_cons (v := x)]
      call (popHeap_spec (nf := nf) (c := c) (i := i) (a := a) (vs := H) hsw hH)
      intro _
      xintro ws hws
      have hl := hws.1.length_eq
      rw [seg_append, seg_one, hl, show i + (a :: H).length - 1 = i + H.length by simp <;> omega]
      call (swp_pts (nf := nf) (x := c (i + H.length)) (y := c (i + (a :: H).length + B1.length)) (a := a) (b := x))
      intro _
      have h1 := pushHeap_spec (nf := nf) (c := c) (i := i) (vs := ws) (v := x) hsw hws.2
      rw [seg_append, seg_one, hl] at h1
      call h1
      intro _
      xintro H' hH'
      have hl' := hH'.1.length_eq
      simp only [List.length_append, List.length_singleton] at hl'
      have hax : comp a x = false := hsw.asymm hlt
      have hmem : ∀ y, y ∈ H' → comp a y = false := by
        intro y hy
        have := hH'.1.mem_iff.1 hy
        rcases List.mem_append.1 this with h | h
        · exact IsHeap.top hsw hH y (List.mem_cons_of_mem _ (hws.1.mem_iff.1 h))
        · simp at h; subst h; exact hax
      have hB' : ∀ b, b ∈ B1 ++ [a] → ∀ y, y ∈ H' → comp b y = false := by
        intro b hb y hy
        rcases List.mem_append.1 hb with h | h
        · exact hsw.negtrans (hB b h a (by simp)) (hmem y hy)
        · simp at h; subst h; exact hmem y hy
      have := @ih H' (B1 ++ [a]) (by intro h; rw [h] at hl'; simp at hl') hH'.2 hB'
      rw [show H'.length = (a :: H).length by simp <;> omega] at this
      rw [show i + (a :: H).length + (B1 ++ [a]).length = i + (a :: H).length + B1.length + 1 by simp <;> omega,
        show (B1 ++ [a] ++ B2).length = (B1 ++ x :: B2).length by simp] at this
      refine Triple.pre ?_ (Triple.post this ?_)
      · simp only [seg_append, seg_cons, seg_nil, sep_emp, List.length_append, List.length_singleton]
        rw [show i + H'.length = i + (a :: H).length by simp <;> omega]
        simp only [← Nat.add_assoc]
        cancel
      · intro _
        xintro H2 B2' h2
        obtain ⟨p1, p2, p3, p4⟩ := h2
        xexists H2, B2'
        cancel
        refine ⟨p1.trans ?_, by rw [p2], p3, p4⟩
        have q1 : (H' ++ (B1 ++ [a] ++ B2)).Perm ((ws ++ [x]) ++ (B1 ++ [a] ++ B2)) := List.Perm.append_right _ hH'.1
        refine q1.trans ?_
        have q2 : ((ws ++ [x]) ++ (B1 ++ [a] ++ B2)).Perm ((H ++ [x]) ++ (B1 ++ [a] ++ B2)) := List.Perm.append_right _ (List.Perm.append_right _ hws.1)
        refine q2.trans ?_
        have q3 : (H ++ [x] ++ (B1 ++ [a] ++ B2)).Perm (x :: (a :: (H ++ (B1 ++ B2)))) := by
          rw [List.append_assoc]
          refine List.perm_middle.trans ?_
          refine List.Perm.cons x ?_
          show (H ++ (B1 ++ [a] ++ B2)).Perm _
          rw [show H ++ (B1 ++ [a] ++ B2) = (H ++ B1) ++ a :: B2 by simp]
          refine List.perm_middle.trans ?_
          rw [List.append_assoc]
        refine q3.trans ?_
        have q4 : (a :: H ++ (B1 ++ x :: B2)).Perm (x :: (a :: (H ++ (B1 ++ B2)))) := by
          rw [show a :: H ++ (B1 ++ x :: B2) = (a :: H ++ B1) ++ x :: B2 by simp]
          refine List.perm_middle.trans ?_
          simp
        exact q4.symm
    · rw [if_neg hlt]
      rw [Bool.not_eq_true] at hlt
      have := @ih (a :: H) (B1 ++ [x]) hne hH ?_
      · rw [show B1 ++ [x] ++ B2 = B1 ++ x :: B2 by simp, show i + (a :: H).length + (B1 ++ [x]).length = i + (a :: H).length + B1.length + 1 by simp <;> omega] at this
        exact this
      · intro b hb y hy
        rcases List.mem_append.1 hb with h | h
        · exact hB b h y hy
        · simp at h; subst h
          exact hsw.negtrans hlt (IsHeap.top hsw hH y hy)

theorem partialSort_spec (hsw : StrictWeak comp) {A B : List V} :
    Triple nf (seg c i (A ++ B)) (partialSort c i (i + A.length) (i + A.length + B.length) comp)
      (fun _ => ∃ₛ A', ∃ₛ B', ⌜(A' ++ B').Perm (A ++ B) ∧ A'.length = A.length ∧ Sorted comp A' ∧ (∀ a, a ∈ A' → ∀ b, b ∈ B' → comp b a = false)⌝ ∗
        seg c i (A' ++ B')) := by
  unfold partialSort
  by_cases hA : A = []
  · subst hA
    rw [if_pos (by simp)]
    apply Triple.ret
    xexists [], B
    cancel
    exact ⟨List.Perm.refl _, rfl, List.Pairwise.nil, by simp⟩
  rw [if_neg (by cases A <;> simp_all), seg_append]
  call (makeHeap_spec (nf := nf) (c := c) (i := i) (vs := A) hsw)
  intro _
  xintro H hH
  have hl := hH.1.length_eq
  have := partialSortLoop_spec (nf := nf) (c := c) (i := i) (H := H) (B1 := []) (B2 := B) hsw (by intro h; subst h; simp at hl; exact hA (List.eq_nil_of_length_eq_zero hl.symm)) hH.2 (by simp)
  rw [List.nil_append, hl, List.length_nil, Nat.add_zero, seg_append, hl] at this
  call this
  intro _
  xintro H' B' h
  obtain ⟨h1, h2, h3, h4⟩ := h
  rw [seg_append, h2]
  have := sortHeap_spec (nf := nf) (c := c) (i := i) (vs := H') hsw h3
  rw [h2] at this
  call this
  intro _
  xintro ws hws
  have hl' := hws.1.length_eq
  xexists ws, B'
  rw [seg_append, hl', h2]
  cancel
  refine ⟨?_, by omega, hws.2, ?_⟩
  · exact (List.Perm.append_right _ hws.1).trans (h1.trans (List.Perm.append_right _ hH.1))
  · intro a ha b hb
    exact h4 b hb a (hws.1.mem_iff.1 ha)

theorem pscCopyLoop_spec {m : Nat} (hR : Rng P c i vs) :
    Triple nf (P ∗ seg d j us) (pscCopyLoop c d (i + vs.length) (j + us.length) m i j)
      (fun r => ⌜r = (m + min vs.length us.length, i + min vs.length us.length, j + min vs.length us.length)⌝ ∗ P ∗ seg d j (over us (vs.take us.length))) := by
  induction vs generalizing i j us m P with
  | nil =>
    rw [pscCopyLoop, if_neg (by simp)]
    apply Triple.ret
    simp [over]
    cancel
  | cons v vs ih =>
    rw [pscCopyLoop]
    cases us with
    | nil =>
      rw [if_neg (by simp)]
      apply Triple.ret
      simp [over]
      cancel
    | cons u us =>
      rw [if_pos (by simp)]
      refine asg_seg hR.head ?_
      rw [show i + (v :: vs).length = i + 1 + vs.length by simp <;> omega, show j + (u :: us).length = j + 1 + us.length by simp <;> omega]
      refine Triple.post (ih hR.tail.left) ?_
      intro r
      xintro hr
      simp only [over, List.length_cons, List.take_succ_cons, List.cons_append, seg_cons, List.drop_succ_cons]
      cancel
      rw [hr]; ext <;> simp <;> omega

theorem pscLoop_spec (hsw : StrictWeak comp) {H B1 : List V} (hR : Rng P c i vs) (hne : H ≠ []) (hH : IsHeap comp H) (hB : ∀ b, b ∈ B1 → ∀ x, x ∈ H → comp b x = false) :
    Triple nf (P ∗ seg d j H) (pscLoop c d comp (i + vs.length) j (j + H.length) i)
      (fun _ => P ∗ ∃ₛ H', ∃ₛ B', ⌜(H' ++ B').Perm (H ++ (B1 ++ vs)) ∧ H'.length = H.length ∧ IsHeap comp H' ∧ (∀ b, b ∈ B' → ∀ x, x ∈ H' → comp b x = false)⌝ ∗
        seg d j H') := by
  induction vs generalizing H B1 i with
  | nil =>
    rw [pscLoop, if_neg (by simp)]
    apply Triple.ret
    xexists H, B1
    simp only [List.append_nil]
    cancel
  | cons x vs ih =>
    rw [pscLoop, if_pos (by simp)]
    obtain ⟨a, H, rfl⟩ := List.exists_cons_of_ne_nil hne
    refine cmp_reads hR.head.left seg_rng.head.right ?_
    rw [show i + (x :: vs).length = i + 1 + vs.length by simp <;> omega]
    by_cases hlt : comp x a = true
    · rw [if_pos hlt]
      call (popHeap_spec (nf := nf) (c := d) (i := j) (a := a) (vs := H) hsw hH)
      intro _
      xintro ws hws
      have hl := hws.1.length_eq
      rw [seg_append, seg_one, hl, show j + (a :: H).length - 1 = j + H.length by simp <;> omega]
      refine Triple.bind (Q := fun _ => pts (d (j + H.length)) (.obj (some x)) ∗ seg d j ws ∗ P) ?_ ?_
      · refine Triple.pre (P' := pts (d (j + H.length)) (.obj (some a)) ∗ seg d j ws ∗ P) (by cancel) ?_
        exact asg_pts hR.head.right.right
      intro _
      have h1 := pushHeap_spec (nf := nf) (c := d) (i := j) (vs := ws) (v := x) hsw hws.2
      rw [seg_append, seg_one, hl] at h1
      call h1
      intro _
      xintro H' hH'
      have hl' := hH'.1.length_eq
      simp only [List.length_append, List.length_singleton] at hl'
      have hax : comp a x = false := hsw.asymm hlt
      have hmem : ∀ y, y ∈ H' → comp a y = false := by
        intro y hy
        have := hH'.1.mem_iff.1 hy
        rcases List.mem_append.1 this with h | h
        · exact IsHeap.top hsw hH y (List.mem_cons_of_mem _ (hws.1.mem_iff.1 h))
        · simp at h; subst h; exact hax
      have hB' : ∀ b, b ∈ B1 ++ [a] → ∀ y, y ∈ H' → comp b y = false := by
        intro b hb y hy
        rcases List.mem_append.1 hb with h | h
        · exact hsw.negtrans (hB b h a (by simp)) (hmem y hy)
        · simp at h; subst h; exact hmem y hy
      have := @ih (i + 1) H' (B1 ++ [a]) hR.tail (by intro h; rw [h] at hl'; simp at hl') hH'.2 hB'
      rw [show H'.length = (a :: H).length by simp <;> omega] at this
      refine Triple.pre ?_ (Triple.post this ?_)
      · cancel
      · intro _
        xintro H2 B2' h2
        obtain ⟨p1, p2, p3, p4⟩ := h2
        xexists H2, B2'
        cancel
        refine ⟨p1.trans ?_, p2, p3, p4⟩
        have q1 : (H' ++ (B1 ++ [a] ++ vs)).Perm ((ws ++ [x]) ++ (B1 ++ [a] ++ vs)) := List.Perm.append_right _ hH'.1
        refine q1.trans ?_
        have q2 : ((ws ++ [x]) ++ (B1 ++ [a] ++ vs)).Perm ((H ++ [x]) ++ (B1 ++ [a] ++ vs)) := List.Perm.append_right _ (List.Perm.append_right _ hws.1)
        refine q2.trans ?_
        have q3 : (H ++ [x] ++ (B1 ++ [a] ++ vs)).Perm (x :: (a :: (H ++ (B1 ++ vs)))) := by
          rw [List.append_assoc]
          refine List.perm_middle.trans ?_
          refine List.Perm.cons x ?_
          show (H ++ (B1 ++ [a] ++ vs)).Perm _
          rw [show H ++ (B1 ++ [a] ++ vs) = (H ++ B1) ++ a :: vs by simp]
          refine List.perm_middle.trans ?_
          rw [List.append_assoc]
        refine q3.trans ?_
        have q4 : (a :: H ++ (B1 ++ x :: vs)).Perm (x :: (a :: (H ++ (B1 ++ vs)))) := by
          rw [show a :: H ++ (B1 ++ x :: vs) = (a :: H ++ B1) ++ x :: vs by simp]
          refine List.perm_middle.trans ?_
          simp
        exact q4.symm
    · rw [if_neg hlt]
      rw [Bool.not_eq_true] at hlt
      have := @ih (i + 1) (a :: H) (B1 ++ [x]) hR.tail hne hH ?_
      · rw [show B1 ++ [x] ++ vs = B1 ++ x :: vs by simp] at this
        exact this
      · intro b hb y hy
        rcases List.mem_append.1 hb with h | h
        · exact hB b h y hy
        · simp at h; subst h
          exact hsw.negtrans hlt (IsHeap.top hsw hH y hy)

theorem partialSortCopy_spec (hsw : StrictWeak comp) (hR : Rng P c i vs) :
    Triple nf (P ∗ seg d j us) (partialSortCopy c i (i + vs.length) d j (j + us.length) comp)
      (fun r => ⌜r = (min vs.length us.length, j + min vs.length us.length)⌝ ∗ P ∗
        ∃ₛ ws, ∃ₛ rest, ⌜(ws ++ rest).Perm vs ∧ ws.length = min vs.length us.length ∧ Sorted comp ws ∧ (∀ a, a ∈ ws → ∀ b, b ∈ rest → comp b a = false)⌝ ∗
        seg d j (over us ws)) := by
  unfold partialSortCopy
  by_cases h0 : vs = [] ∨ us = []
  · rw [if_pos (by rcases h0 with h | h <;> simp [h])]
    apply Triple.ret
    xexists [], vs
    have hmin : min vs.length us.length = 0 := by rcases h0 with h | h <;> simp [h]
    rw [hmin]
    simp only [over, List.nil_append, List.length_nil, List.drop_zero]
    cancel
    exact ⟨List.Perm.refl _, trivial, List.Pairwise.nil, by simp⟩
  rw [not_or] at h0
  rw [if_neg (by have := List.length_pos_iff.2 h0.1; have := List.length_pos_iff.2 h0.2; omega)]
  refine Triple.bind (pscCopyLoop_spec (m := 0) hR) ?_
  intro r
  xintro hr
  subst hr
  dsimp only
  generalize hm : min vs.length us.length = m
  have hpos : 0 < m := by have := List.length_pos_iff.2 h0.1; have := List.length_pos_iff.2 h0.2; omega
  have htk : vs.take us.length = vs.take m := by
    rw [← hm]; rcases Nat.le_total vs.length us.length with h | h
    · rw [Nat.min_eq_left h, List.take_length, List.take_of_length_le h]
    · rw [Nat.min_eq_right h]
  rw [htk, over, seg_append]
  have hlen : (vs.take m).length = m := by rw [List.length_take]; omega
  have h1 := makeHeap_spec (nf := nf) (c := d) (i := j) (vs := vs.take m) hsw
  rw [hlen] at h1
  rw [hlen]
  call h1
  intro _
  xintro H hH
  have hl := hH.1.length_eq
  rw [hlen] at hl
  have h2 := pscLoop_spec (nf := nf) (P := P) (c := c) (d := d) (i := i + m) (j := j) (H := H) (B1 := []) (vs := vs.drop m) hsw (hR.drop m)
    (by intro h; subst h; simp at hl; omega) hH.2 (by simp)
  rw [show i + m + (vs.drop m).length = i + vs.length by simp <;> omega, hl] at h2
  call h2
  intro _
  xintro H' B' h
  obtain ⟨e1, e2, e3, e4⟩ := h
  have h3 := sortHeap_spec (nf := nf) (c := d) (i := j) (vs := H') hsw e3
  rw [e2] at h3
  call h3
  intro _
  xintro ws hws
  have hl' := hws.1.length_eq
  apply Triple.ret
  xexists ws, B'
  rw [over, seg_append, hl', e2, Nat.zero_add]
  cancel
  refine ⟨?_, by omega, hws.2, ?_⟩
  · refine (List.Perm.append_right _ hws.1).trans (e1.trans ?_)
    rw [List.nil_append]
    refine (List.Perm.append_right _ hH.1).trans ?_
    rw [List.take_append_drop]
  · intro a ha b hb
    exact e4 b hb a (hws.1.mem_iff.1 ha)

end CC.Algo
