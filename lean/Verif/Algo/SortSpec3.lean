import Verif.Algo.SortSpec2
/-!
# Proofs for `c_sorting.c`: `is_sorted`, and what happens to long ranges
-/
namespace CC.Algo
open CC CC.Tac
variable {V : Type} {nf : Prop} {P : HProp V} {c d : Slots} {i j n h : Nat} {vs us : List V} {f g : Nat → V} {comp : V → V → Bool}

theorem sortedLoop_spec {a : V} (hR : Rng P c i (a :: vs)) :
    Triple nf P (sortedLoop c comp i (i + 1) (i + 1 + vs.length))
      (fun r => ⌜(r = (true, i + vs.length) ∧ ∀ k x y, (a :: vs)[k]? = some x → (a :: vs)[k + 1]? = some y → comp y x = false) ∨
        (∃ k x y, r = (false, i + k) ∧ (a :: vs)[k]? = some x ∧ (a :: vs)[k + 1]? = some y ∧ comp y x = true ∧
          ∀ l x y, l < k → (a :: vs)[l]? = some x → (a :: vs)[l + 1]? = some y → comp y x = false)⌝ ∗ P) := by
  induction vs generalizing a i with
  | nil =>
    rw [sortedLoop, if_neg (by simp)]
    apply Triple.ret
    cancel
    exact Or.inl ⟨by simp, fun k x y _ h => by simp at h⟩
  | cons b vs ih =>
    rw [sortedLoop, if_pos (by simp)]
    refine cmp_reads hR.tail.head hR.head ?_
    by_cases hc : comp b a = true
    · rw [if_pos hc]
      apply Triple.ret
      cancel
      exact Or.inr ⟨0, a, b, rfl, rfl, rfl, hc, fun l _ _ h => absurd h (Nat.not_lt_zero _)⟩
    · rw [if_neg hc]
      rw [Bool.not_eq_true] at hc
      rw [show i + 1 + (b :: vs).length = i + 1 + 1 + vs.length by simp; omega]
      refine Triple.post (ih hR.tail) ?_
      intro r
      xintro hr
      cancel
      rcases hr with ⟨rfl, h1⟩ | ⟨k, x, y, rfl, h1, h2, h3, h4⟩
      · refine Or.inl ⟨by simp; omega, ?_⟩
        intro k x y hx hy
        cases k with
        | zero => simp at hx hy; subst hx hy; exact hc
        | succ k => exact h1 k x y hx hy
      · refine Or.inr ⟨k + 1, x, y, by simp; omega, h1, h2, h3, ?_⟩
        intro l x y hl hx hy
        cases l with
        | zero => simp at hx hy; subst hx hy; exact hc
        | succ l => exact h4 l x y (by omega) hx hy

theorem sorted_of_adj (hsw : StrictWeak comp) (h : ∀ k x y, vs[k]? = some x → vs[k + 1]? = some y → comp y x = false) : Sorted comp vs := by
  induction vs with
  | nil => exact List.Pairwise.nil
  | cons a vs ih =>
    have hs := ih (fun k x y hx hy => h (k + 1) x y hx hy)
    refine List.pairwise_cons.2 ⟨?_, hs⟩
    cases vs with
    | nil => simp
    | cons b vs =>
      intro z hz
      have hba := h 0 a b rfl rfl
      rcases List.mem_cons.1 hz with rfl | hz
      · exact hba
      · exact hsw.negtrans ((List.pairwise_cons.1 hs).1 z hz) hba

theorem adj_of_sorted (h : Sorted comp vs) {k : Nat} {x y : V} (hx : vs[k]? = some x) (hy : vs[k + 1]? = some y) : comp y x = false := by
  obtain ⟨h1, rfl⟩ := List.getElem?_eq_some_iff.1 hx
  obtain ⟨h2, rfl⟩ := List.getElem?_eq_some_iff.1 hy
  exact List.pairwise_iff_getElem.1 h k (k + 1) h1 h2 (by omega)

/-- On a sorted range the end; on any other range the element *before* the first one that is less than its predecessor. -/
theorem isSortedUntil_spec (hsw : StrictWeak comp) (hR : Rng P c i vs) :
    Triple nf P (isSortedUntil c i (i + vs.length) comp)
      (fun r => ⌜(Sorted comp vs ∧ r = i + vs.length) ∨ (∃ k, k + 1 < vs.length ∧ r = i + k ∧ Sorted comp (vs.take (k + 1)) ∧ ¬ Sorted comp (vs.take (k + 2)))⌝ ∗ P) := by
  unfold isSortedUntil
  cases vs with
  | nil =>
    rw [if_pos (by simp)]
    apply Triple.ret
    cancel
    exact Or.inl ⟨List.Pairwise.nil, rfl⟩
  | cons a vs =>
    rw [if_neg (by simp), show i + (a :: vs).length = i + 1 + vs.length by simp; omega]
    refine Triple.bind (sortedLoop_spec hR) ?_
    intro r
    xintro hr
    apply Triple.ret
    cancel
    rcases hr with ⟨rfl, h1⟩ | ⟨k, x, y, rfl, h1, h2, h3, h4⟩
    · exact Or.inl ⟨sorted_of_adj hsw h1, by simp⟩
    · refine Or.inr ⟨k, (List.getElem?_eq_some_iff.1 h2).1, by simp, ?_, ?_⟩
      · apply sorted_of_adj hsw
        intro l x y hx hy
        rw [List.getElem?_take] at hx hy
        split at hy
        · split at hx
          · exact h4 l x y (by omega) hx hy
          · cases hx
        · cases hy
      · intro hs
        have := adj_of_sorted hs (k := k) (x := x) (y := y) (by rw [List.getElem?_take, if_pos (by omega)]; exact h1) (by rw [List.getElem?_take, if_pos (by omega)]; exact h2)
        rw [h3] at this; cases this

theorem isSorted_spec (hsw : StrictWeak comp) (hR : Rng P c i vs) :
    Triple nf P (isSorted c i (i + vs.length) comp) (fun r => ⌜r = true ↔ Sorted comp vs⌝ ∗ P) := by
  unfold isSorted
  refine Triple.bind (isSortedUntil_spec hsw hR) ?_
  intro r
  xintro hr
  apply Triple.ret
  cancel
  rcases hr with ⟨h1, rfl⟩ | ⟨k, h1, rfl, _, h2⟩
  · simp [h1]
  · constructor
    · intro h; simp at h; omega
    · intro h
      exact absurd (List.Pairwise.sublist (List.take_sublist _ _) h) h2

theorem isHeap_take {k : Nat} (hk : k ≤ n) : IsHeap comp ((tab n f).take k) ↔ ∀ l, 0 < l → l < k → comp (f ((l - 1) / 2)) (f l) = false := by
  constructor
  · intro h l h0 hl
    exact h l _ _ h0 (by rw [List.getElem?_take, if_pos (by omega), tab_getElem? (by omega)]) (by rw [List.getElem?_take, if_pos (by omega), tab_getElem? (by omega)])
  · intro h l x y h0 hx hy
    rw [List.getElem?_take] at hx hy
    split at hy
    · rename_i hl
      rw [if_pos (by omega), tab_getElem? (by omega)] at hx
      rw [tab_getElem? (by omega)] at hy
      cases hx; cases hy
      exact h l h0 hl
    · cases hy

/-- On a heap the end; on any other range the *parent* `q` of the first offending element, although all prefixes up to length `2 * q + 1` are heaps. -/
theorem isHeapUntil_spec (hR : Rng P c i vs) :
    Triple nf P (isHeapUntil c i (i + vs.length) comp)
      (fun r => ⌜(IsHeap comp vs ∧ r = i + vs.length) ∨ (∃ q, 2 * q + 1 < vs.length ∧ r = i + q ∧ IsHeap comp (vs.take (2 * q + 1)) ∧ ¬ IsHeap comp (vs.take (2 * q + 3)))⌝ ∗ P) := by
  unfold isHeapUntil
  rw [Nat.add_sub_cancel_left]
  by_cases hne : vs = []
  · subst hne
    rw [List.length_nil, isHeapLoop, if_neg (by omega), pure_bind]
    apply Triple.ret
    cancel
    exact Or.inl ⟨by simp [IsHeap], rfl⟩
  obtain ⟨f, hf⟩ := exists_tab hne
  generalize hn : vs.length = n at *
  subst hf
  refine Triple.bind (isHeapLoop_spec (n := n) (f := f) (p := 0) (by omega) (fun k hk => by have := hR k (by simpa); rwa [tab_getElem] at this)) ?_
  intro r
  xintro hr
  apply Triple.ret
  cancel
  rcases hr with ⟨rfl, h1⟩ | ⟨q, rfl, h1, k, h0, hk, hkq, h2⟩
  · exact Or.inl ⟨isHeap_tab.2 h1, rfl⟩
  · refine Or.inr ⟨q, by omega, rfl, ?_, ?_⟩
    · rw [isHeap_take (by omega)]
      intro l l0 hl
      exact h1 l l0 (by omega) (by omega)
    · intro hh
      have := hh k (f q) (f k) h0 (by rw [List.getElem?_take, if_pos (by omega), hkq, tab_getElem? (by omega)]) (by rw [List.getElem?_take, if_pos (by omega), tab_getElem? hk])
      rw [h2] at this; cases this

/-! ## a range of 513 elements of which one is lost -/

theorem downScan_exact {pivot : V} {q w : Nat} (hwq : w ≤ q) (hq : q < n) (hg : comp pivot (f w) = false) (hm : ∀ k, w < k → k ≤ q → comp pivot (f k) = true) :
    Triple nf (seg c i (tab n f)) (downScan c comp pivot (i + q)) (fun r => ⌜r = i + w⌝ ∗ seg c i (tab n f)) := by
  induction hd : q - w generalizing q with
  | zero =>
    obtain rfl : q = w := by omega
    rw [downScan]
    refine test_reads (tab_reads hq) ?_
    rw [if_neg (by simp [hg])]
    apply Triple.ret
    cancel
  | succ m ih =>
    rw [downScan]
    refine test_reads (tab_reads hq) ?_
    rw [if_pos (hm q (by omega) (Nat.le_refl _))]
    obtain ⟨q', rfl⟩ : ∃ q', q = q' + 1 := ⟨q - 1, by omega⟩
    rw [show i + (q' + 1) = i + q' + 1 by omega]
    apply dec_spec
    exact ih (q := q') (by omega) (by omega) (fun k h1 h2 => hm k h1 (by omega)) (by omega)

theorem upScan_exact {pivot : V} {p : Nat} (hp : p < n) (hg : comp (f p) pivot = false) :
    Triple nf (seg c i (tab n f)) (upScan c comp pivot (i + p)) (fun r => ⌜r = i + p⌝ ∗ seg c i (tab n f)) := by
  rw [upScan]
  refine test_reads (tab_reads hp) ?_
  rw [if_neg (by simp [hg])]
  apply Triple.ret
  cancel

/-- zeros at 0 and 256, a one at the end, twos elsewhere -/
def lostF (k : Nat) : Nat := if k = 0 ∨ k = 256 then 0 else if k = 512 then 1 else 2

def ltN (a b : Nat) : Bool := decide (a < b)

theorem ltN_sw : StrictWeak ltN := by
  constructor <;> simp [ltN] <;> omega

theorem lostF_swap : swapf lostF 0 256 = lostF := by
  funext k
  unfold swapf lostF
  split
  · subst_vars; rfl
  · split
    · subst_vars; rfl
    · rfl

theorem hoare_lost : Triple nf (seg c i (tab 513 lostF)) (hoare c ltN 0 (i + 0) (i + 513)) (fun r => ⌜r = i + 1⌝ ∗ seg c i (tab 513 lostF)) := by
  rw [hoare]
  refine Triple.bind (upScan_exact (by omega) (by rfl)) ?_
  intro r
  xintro hr
  rw [hr]
  rw [show i + 513 = i + 512 + 1 by omega]
  apply dec_spec
  refine Triple.bind (downScan_exact (w := 256) (by omega) (by omega) (by rfl) ?_) ?_
  · intro k h1 h2
    unfold lostF ltN
    rw [if_neg (by omega)]
    split <;> rfl
  intro r
  xintro hr
  subst hr
  rw [if_pos (by omega)]
  have h1 := swp_tab (nf := nf) (c := c) (i := i) (n := 513) (f := lostF) (a := 0) (b := 256) (by omega) (by omega)
  rw [lostF_swap] at h1
  refine Triple.bind h1 ?_
  intro _
  rw [hoare, show i + 0 + 1 = i + 1 by omega]
  refine Triple.bind (upScan_exact (by omega) (by rfl)) ?_
  intro r
  xintro hr
  subst hr
  rw [show i + 256 = i + 255 + 1 by omega]
  apply dec_spec
  refine Triple.bind (downScan_exact (w := 0) (by omega) (by omega) (by rfl) ?_) ?_
  · intro k h1 h2
    unfold lostF ltN
    rw [if_neg (by omega)]
    split <;> rfl
  intro r
  xintro hr
  subst hr
  rw [if_neg (by omega)]
  apply Triple.ret
  cancel

theorem lg_pos {n : Nat} (h : 1 < n) : 0 < lg n := by rw [lg, if_pos h]; omega

theorem introsort_lost {depth : Nat} : Triple nf (seg c i (tab 513 lostF)) (introsort c ltN (depth + 1) i (i + 513)) (fun _ => seg c i (tab 513 lostF)) := by
  rw [introsort, if_pos (by show _ > 512; omega)]
  have hmed : Triple nf (seg c i (tab 513 lostF)) (median (c i) (c (i + (i + 513 - i) / 2)) (c (i + 513 - 1)) ltN) (fun r => ⌜r = 0⌝ ∗ seg c i (tab 513 lostF)) := by
    have r0 := tab_reads (V := Nat) (c := c) (i := i) (n := 513) (f := lostF) (k := 0) (by omega)
    have r1 := tab_reads (V := Nat) (c := c) (i := i) (n := 513) (f := lostF) (k := 256) (by omega)
    have r2 := tab_reads (V := Nat) (c := c) (i := i) (n := 513) (f := lostF) (k := 512) (by omega)
    rw [show (i + 513 - i) / 2 = 256 by omega, show i + 513 - 1 = i + 512 by omega]
    unfold median
    refine cmp_reads r0 r1 ?_
    rw [if_neg (by simp [lostF, ltN])]
    refine cmp_reads r0 r2 ?_
    rw [if_pos (by simp [lostF, ltN]), ← bind_pure (ldV _)]
    refine ldV_reads r0 ?_
    apply Triple.ret
    cancel
  refine Triple.bind hmed ?_
  intro r
  xintro hr
  subst hr
  refine Triple.bind hoare_lost ?_
  intro r
  xintro hr
  subst hr
  rw [introsort_small (by show _ ≤ 512; omega), introsort_small (by show _ ≤ 512; omega), pure_bind]
  apply Triple.ret
  cancel

theorem sort_lost : Triple nf (seg c i (tab 513 lostF)) (sort c i (i + 513) ltN) (fun _ => ∃ₛ ws, ⌜1 ∈ tab 513 lostF ∧ ¬ 1 ∈ ws⌝ ∗ seg c i ws) := by
  unfold sort
  rw [if_neg (by omega)]
  obtain ⟨depth, hd⟩ : ∃ depth, lg (i + 513 - i) * 2 = depth + 1 := by
    have := lg_pos (n := i + 513 - i) (by omega)
    exact ⟨lg (i + 513 - i) * 2 - 1, by omega⟩
  rw [hd]
  refine Triple.bind introsort_lost ?_
  intro _
  have ht : tab 513 lostF = tab 512 lostF ++ [1] := by rw [tab_succ]; rfl
  have h1 := finalSort_large (nf := nf) (c := c) (i := i) (A := tab 512 lostF) (B := [1]) ltN_sw (by simp [threshold]) (by simp)
  rw [← ht, tab_length] at h1
  refine Triple.post h1 ?_
  intro _
  xintro H a hh
  suffices hp : 1 ∈ tab 513 lostF ∧ ¬ 1 ∈ H ++ [a] ++ carry ltN a [1] by
    xexists H ++ [a] ++ carry ltN a [1]
    generalize tab 513 lostF = T at hp
    cancel
  refine ⟨by rw [ht]; simp, ?_⟩
  have hmem : ∀ x, x ∈ H ++ [a] → x = 0 ∨ x = 2 := by
    intro x hx
    obtain ⟨k, hk, rfl⟩ := mem_tab.1 (hh.1.mem_iff.1 hx)
    unfold lostF
    split
    · exact Or.inl rfl
    · rw [if_neg (by omega)]; exact Or.inr rfl
  have ha : a = 2 := by
    have h2 : (2 : Nat) ∈ H ++ [a] := hh.1.mem_iff.2 (mem_tab.2 ⟨1, by omega, rfl⟩)
    rcases List.mem_append.1 h2 with h | h
    · have := (List.pairwise_append.1 hh.2).2.2 2 h a (by simp)
      rcases hmem a (by simp) with rfl | rfl
      · simp [ltN] at this
      · rfl
    · simp at h; exact h.symm
  subst ha
  intro h
  rcases List.mem_append.1 h with h | h
  · rcases hmem 1 h with h | h <;> cases h
  · simp [carry, ltN] at h

end CC.Algo
