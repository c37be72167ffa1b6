import Verif.IAlgo.SortRef
/-!
# The parts of `__introspective_sort_by` lie in the range

`introsortG` and `sortG` are the programs on positions with a check that the parts lie in the range; they never give up, and do what `Algo.introsort`, `Algo.sort` do.
-/
namespace CC.IAlgo
open CC CC.Tac CC.Algo
variable {V : Type} {nf : Prop} {c : Slots} {i : Nat} {vs : List V} {comp : V → V → Bool}

theorem introsortG_spec (hsw : StrictWeak comp) (depth : Nat) :
    Triple nf (seg c i vs) (introsortG c comp depth i (i + vs.length)) (fun _ => ∃ₛ ws, ⌜ws.Perm vs⌝ ∗ seg c i ws) := by
  induction depth generalizing i vs with
  | zero =>
    rw [introsortG]
    by_cases hn : i + vs.length - i > threshold
    · rw [if_pos hn]
      have := partialSort_spec (nf := nf) (c := c) (i := i) (A := vs) (B := []) hsw
      simp only [List.append_nil, List.length_nil, Nat.add_zero] at this
      refine Triple.post this ?_
      intro _
      xintro A' B' h
      xexists A' ++ B'
      cancel
      exact h.1
    · rw [if_neg hn]
      apply Triple.ret
      xexists vs
      cancel
  | succ depth ih =>
    rw [introsortG]
    by_cases hn : i + vs.length - i > threshold
    · rw [if_pos hn]
      have h512 : (512 : Nat) < vs.length := by have : threshold = 512 := rfl; omega
      obtain ⟨f, hf⟩ := exists_tab (vs := vs) (by intro h; subst h; simp at h512)
      generalize hnn : vs.length = n at *
      subst hf
      refine Triple.bind (median_spec (tab_reads (k := 0) (by omega)) (tab_reads (k := (i + n - i) / 2) (by omega))
        (by have := tab_reads (V := V) (c := c) (i := i) (n := n) (f := f) (k := n - 1) (by omega); rwa [show i + (n - 1) = i + n - 1 by omega] at this)) ?_
      intro pivot
      xintro hp
      obtain ⟨m, hm, rfl⟩ : ∃ m, m < n ∧ pivot = f m := by
        rcases hp with h | h | h
        · exact ⟨_, by omega, h⟩
        · exact ⟨_, by omega, h⟩
        · exact ⟨_, by omega, h⟩
      refine Triple.bind (hoare_spec (p := 0) (q := n) (u := m) (w := m) (by omega) hm (hsw.irrefl _) (by omega) (Nat.le_refl _) (hsw.irrefl _)) ?_
      intro r
      xintro g k hk
      obtain ⟨rfl, hk, hg⟩ := hk
      rw [if_neg (by omega)]
      have hl := hg.length_eq
      obtain ⟨A, B, hAB, hA⟩ : ∃ A B, tab n g = A ++ B ∧ A.length = k := ⟨(tab n g).take k, (tab n g).drop k, by simp, by simp; omega⟩
      have hBl : k + B.length = n := by rw [← hA, ← List.length_append, ← hAB]; simp
      rw [hAB, seg_append, hA]
      have i1 := @ih (i + k) B
      rw [show i + k + B.length = i + n by omega] at i1
      call i1
      intro _
      xintro B' hB'
      have i2 := @ih i A
      rw [hA] at i2
      call i2
      intro _
      xintro A' hA'
      xexists A' ++ B'
      rw [seg_append, hA'.length_eq, hA]
      cancel
      refine (List.Perm.append hA' hB').trans ?_
      rw [← hAB]
      exact hg
    · rw [if_neg hn]
      apply Triple.ret
      xexists vs
      cancel

theorem introsortG_small {depth : Nat} {first last : Nat} (h : last - first ≤ threshold) : introsortG (V := V) c comp depth first last = pure () := by
  cases depth <;> rw [introsortG, if_neg (by omega)]

theorem sortG_small (hsw : StrictWeak comp) (hn : vs.length ≤ 512) :
    Triple nf (seg c i vs) (sortG c i (i + vs.length) comp) (fun _ => ∃ₛ ws, ⌜ws.Perm vs ∧ Sorted comp ws⌝ ∗ seg c i ws) := by
  unfold sortG
  by_cases h0 : vs = []
  · subst h0
    rw [if_pos (by simp)]
    apply Triple.ret
    xexists []
    cancel
    exact ⟨List.Perm.refl _, List.Pairwise.nil⟩
  have := List.length_pos_iff.2 h0
  rw [if_neg (by omega), introsortG_small (by show _ ≤ 512; omega), pure_bind]
  exact finalSort_small hsw hn

theorem sortG_any (hsw : StrictWeak comp) :
    Triple nf (seg c i vs) (sortG c i (i + vs.length) comp) (fun _ => ∃ₛ ws, ⌜ws.length = vs.length ∧ Sorted comp ws ∧ (∀ x, x ∈ ws → x ∈ vs)⌝ ∗ seg c i ws) := by
  by_cases hn : vs.length ≤ 512
  · refine Triple.post (sortG_small hsw hn) ?_
    intro _
    xintro ws hws
    xexists ws
    cancel
    exact ⟨hws.1.length_eq, hws.2, fun x hx => hws.1.mem_iff.1 hx⟩
  unfold sortG
  rw [if_neg (by omega)]
  refine Triple.bind (introsortG_spec hsw _) ?_
  intro _
  xintro zs hz
  have hl := hz.length_eq
  obtain ⟨A, B, hAB, hA⟩ : ∃ A B, zs = A ++ B ∧ A.length = threshold := ⟨zs.take 512, zs.drop 512, by simp, by simp [threshold]; omega⟩
  subst hAB
  have hAB := List.length_append (as := A) (bs := B)
  have ht : threshold = 512 := rfl
  rw [← hl]
  refine Triple.post (finalSort_large hsw hA (by intro h; subst h; rw [List.append_nil] at hl; omega)) ?_
  intro _
  xintro H a h
  xexists H ++ [a] ++ carry comp a B
  cancel
  refine ⟨?_, carry_sorted hsw h.2, ?_⟩
  · have := h.1.length_eq
    rw [List.length_append, this, carry_length, hl, ← hl, hAB]
  · intro x hx
    refine hz.mem_iff.1 ?_
    rcases List.mem_append.1 hx with h1 | h1
    · exact List.mem_append_left _ (h.1.mem_iff.1 h1)
    · rcases carry_mem h1 with h2 | h2
      · subst h2
        exact List.mem_append_left _ (h.1.mem_iff.1 (by simp))
      · exact List.mem_append_right _ h2

end CC.IAlgo
