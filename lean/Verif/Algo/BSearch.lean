import Verif.Algo.NonModSpec2
/-!
# Model of `algorithm/c_bsearch.c` and proofs about it
-/
namespace CC.Algo
open CC CC.Tac
variable {V : Type} {nf : Prop} {P : HProp V} {c d : Slots} {i j : Nat} {vs us : List V}

/-- The loop of `algo_lower_bound_by`, c_bsearch.c:48-60, and of `algo_upper_bound_by` (87-99): `right it` tells whether the bound is behind `it`. -/
def boundLoop (right : Nat → M V Bool) (first count : Nat) : M V Nat :=
  if count > 0 then do
    let step := count / 2
    let it := first + step
    if ← right it then boundLoop right (it + 1) (count - (step + 1)) else boundLoop right first step
  else pure first
partial_fixpoint

/-- `algo_lower_bound_by`, c_bsearch.c:30-67; returns `*bound` -/
def lowerBound (c : Slots) (first last : Nat) (value : Loc) (comp : V → V → Bool) : M V Nat :=
  boundLoop (fun it => cmp comp (c it) value) first (last - first)

/-- `algo_upper_bound_by`, c_bsearch.c:69-106; returns `*bound` -/
def upperBound (c : Slots) (first last : Nat) (value : Loc) (comp : V → V → Bool) : M V Nat :=
  boundLoop (fun it => do pure (!(← cmp comp value (c it)))) first (last - first)

/-- `algo_binary_search_by`, c_bsearch.c:108-127 -/
def binarySearch (c : Slots) (first last : Nat) (value : Loc) (comp : V → V → Bool) : M V Bool := do
  let f ← lowerBound c first last value comp
  if f ≠ last then do
    let b ← cmp comp value (c f)
    pure (!b)
  else pure false

/-- `algo_equal_range_by`, c_bsearch.c:129-146; returns `*lower_bound` and `*upper_bound` -/
def equalRange (c : Slots) (first last : Nat) (value : Loc) (comp : V → V → Bool) : M V (Nat × Nat) := do
  let l ← lowerBound c first last value comp
  let u ← upperBound c first last value comp
  pure (l, u)

/-! ## proofs -/

theorem Parted.get {q : V → Bool} (hp : Parted q vs) {j k : Nat} (hjk : j ≤ k) (hk : k < vs.length) (h : q vs[k] = true) : q (vs[j]'(by omega)) = true := by
  rcases Nat.lt_or_ge j k with h1 | h1
  · exact List.pairwise_iff_getElem.1 hp j k (by omega) hk h1 h
  · obtain rfl : j = k := by omega
    exact h

theorem boundLoop_spec {right : Nat → M V Bool} {q : V → Bool} {k n : Nat}
    (hr : ∀ k (hk : k < vs.length) {β : Type} {Q : β → HProp V} {K : Bool → M V β}, Triple nf P (K (q vs[k])) Q → Triple nf P (right (i + k) >>= K) Q)
    (hp : Parted q vs) (hn : k + n ≤ vs.length) (hlo : ∀ j (h : j < vs.length), j < k → q vs[j] = true)
    (hhi : ∀ j (h : j < vs.length), k + n ≤ j → q vs[j] = false) :
    Triple nf P (boundLoop right (i + k) n) (fun r => ⌜∃ k, r = i + k ∧ SplitAt q vs k⌝ ∗ P) := by
  induction hm : n using Nat.strongRecOn generalizing k n with
  | _ t ih =>
    subst hm
    rw [boundLoop]
    by_cases h0 : n > 0
    · rw [if_pos h0]
      dsimp only
      rw [Nat.add_assoc]
      have hk : k + n / 2 < vs.length := by omega
      refine hr (k + n / 2) hk ?_
      by_cases hq : q vs[k + n / 2] = true
      · rw [if_pos hq, show i + (k + n / 2) + 1 = i + (k + n / 2 + 1) by omega]
        refine ih (n - (n / 2 + 1)) (by omega) (by omega) ?_ ?_ rfl
        · intro j h hj
          exact hp.get (by omega : j ≤ k + n / 2) hk hq
        · intro j h hj
          exact hhi j h (by omega)
      · rw [if_neg hq]
        refine ih (n / 2) (by omega) (by omega) hlo ?_ rfl
        intro j h hj
        cases hqj : q vs[j]
        · rfl
        · exact absurd (hp.get hj h hqj) hq
    · rw [if_neg h0]
      apply Triple.ret
      cancel
      refine ⟨k, rfl, by omega, ?_, ?_⟩
      · intro v hv
        obtain ⟨j, hj, rfl⟩ := List.getElem_of_mem hv
        simp only [List.length_take] at hj
        rw [List.getElem_take]
        exact hlo j (by omega) (by omega)
      · intro v hv
        obtain ⟨j, hj, rfl⟩ := List.getElem_of_mem hv
        simp only [List.length_drop] at hj
        rw [List.getElem_drop]
        exact hhi (k + j) (by omega) (by omega)

theorem lowerBound_spec {comp : V → V → Bool} {value : Loc} {w : V} (h : Rng P c i vs) (hw : Reads P value w) (hp : Parted (fun v => comp v w) vs) :
    Triple nf P (lowerBound c i (i + vs.length) value comp) (fun r => ⌜∃ k, r = i + k ∧ SplitAt (fun v => comp v w) vs k⌝ ∗ P) := by
  unfold lowerBound
  rw [Nat.add_sub_cancel_left]
  exact boundLoop_spec (k := 0) (n := vs.length) (q := fun v => comp v w) (fun k hk {_ _ _} ht => cmp_reads (h k hk) hw ht) hp (by omega) (by omega) (by omega)

theorem upperBound_spec {comp : V → V → Bool} {value : Loc} {w : V} (h : Rng P c i vs) (hw : Reads P value w) (hp : Parted (fun v => !comp w v) vs) :
    Triple nf P (upperBound c i (i + vs.length) value comp) (fun r => ⌜∃ k, r = i + k ∧ SplitAt (fun v => !comp w v) vs k⌝ ∗ P) := by
  unfold upperBound
  rw [Nat.add_sub_cancel_left]
  refine boundLoop_spec (k := 0) (n := vs.length) (q := fun v => !comp w v) (fun k hk {_ _ _} ht => ?_) hp (by omega) (by omega) (by omega)
  simp only [bind_assoc, pure_bind]
  exact cmp_reads hw (h k hk) ht

theorem binarySearch_spec {comp : V → V → Bool} {value : Loc} {w : V} (h : Rng P c i vs) (hw : Reads P value w) (hp : Parted (fun v => comp v w) vs)
    (hp' : Parted (fun v => !comp w v) vs) :
    Triple nf P (binarySearch c i (i + vs.length) value comp) (fun r => ⌜r = true ↔ ∃ v, v ∈ vs ∧ comp v w = false ∧ comp w v = false⌝ ∗ P) := by
  unfold binarySearch
  refine Triple.bind (lowerBound_spec h hw hp) ?_
  intro f
  xintro hf
  obtain ⟨k, rfl, h1, h2, h3⟩ := hf
  by_cases hk : k < vs.length
  · rw [if_pos (by omega)]
    refine cmp_reads hw (h k hk) ?_
    apply Triple.ret
    cancel
    constructor
    · intro hb
      refine ⟨vs[k], List.getElem_mem _, ?_, by simpa using hb⟩
      have := h3 vs[k] (by rw [List.mem_iff_getElem]; exact ⟨0, by simp; omega, by simp⟩)
      exact this
    · rintro ⟨v, hv, hv1, hv2⟩
      obtain ⟨j, hj, rfl⟩ := List.getElem_of_mem hv
      rcases Nat.lt_or_ge j k with hjk | hjk
      · have := h2 vs[j] (by rw [List.mem_iff_getElem]; exact ⟨j, by simp; omega, by simp⟩)
        simp only at this
        rw [hv1] at this; cases this
      · exact hp'.get hjk hj (by simpa using hv2)
  · rw [if_neg (by omega)]
    apply Triple.ret
    cancel
    simp only [Bool.false_eq_true, false_iff]
    rintro ⟨v, hv, hv1, hv2⟩
    have := h2 v (by rw [List.take_of_length_le (by omega)]; exact hv)
    simp only at this
    rw [hv1] at this; cases this

theorem equalRange_spec {comp : V → V → Bool} {value : Loc} {w : V} (h : Rng P c i vs) (hw : Reads P value w) (hp : Parted (fun v => comp v w) vs)
    (hp' : Parted (fun v => !comp w v) vs) :
    Triple nf P (equalRange c i (i + vs.length) value comp)
      (fun r => ⌜∃ k l, r = (i + k, i + l) ∧ SplitAt (fun v => comp v w) vs k ∧ SplitAt (fun v => !comp w v) vs l⌝ ∗ P) := by
  unfold equalRange
  refine Triple.bind (lowerBound_spec h hw hp) ?_
  intro f
  xintro hf
  obtain ⟨k, rfl, h1⟩ := hf
  refine Triple.bind (upperBound_spec h hw hp') ?_
  intro f
  xintro hf
  obtain ⟨l, rfl, h2⟩ := hf
  apply Triple.ret
  cancel
  exact ⟨k, l, rfl, h1, h2⟩

/-- a sorted range is partitioned with respect to every value -/
theorem sorted_parted {comp : V → V → Bool} (hsw : StrictWeak comp) {w : V} (h : Sorted comp vs) :
    Parted (fun v => comp v w) vs ∧ Parted (fun v => !comp w v) vs := by
  constructor
  · refine List.Pairwise.imp ?_ h
    intro a b hba hb
    simp only at hb ⊢
    cases ha : comp a w
    · have := hsw.negtrans hba ha
      rw [hb] at this; cases this
    · rfl
  · refine List.Pairwise.imp ?_ h
    intro a b hba hb
    simp only [Bool.not_eq_true'] at hb ⊢
    exact hsw.negtrans hb hba

end CC.Algo
