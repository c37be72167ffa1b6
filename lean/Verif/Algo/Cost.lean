import Verif.Core.Cost
import Verif.Algo.Sort
import Verif.Algo.BSearch
import Verif.Algo.MinMax
import Verif.Algo.Partition
import Verif.Algo.SetOp
/-!
# Counting the element accesses of algorithms

In the model of the algorithms iterators are positions, so that the memory accesses counted by `Mem.clk` are those to elements: a comparison
makes two, a test of a predicate one, an assignment three (it reads the old value of the target, too), a swap six.

`Pays m c Q`: every run of `m` that ends without an error, with a budget of `c` accesses, keeps to it, and its result and what is left of the
budget satisfy `Q`.
-/
namespace CC
variable {V α β : Type}

def Pays (m : M V α) (c : Nat) (Q : α → Nat → Prop) : Prop := ∀ s a s', m s = some (.ok (a, s')) → ∃ r, s'.clk + r ≤ s.clk + c ∧ Q a r

theorem Pays.ret {a : α} {c : Nat} {Q : α → Nat → Prop} (h : Q a c) : Pays (pure a : M V α) c Q := by
  intro s b s' e
  cases e
  exact ⟨c, Nat.le_refl _, h⟩
theorem Pays.bind {m : M V α} {k : α → M V β} {c : Nat} {R : α → Nat → Prop} {Q : β → Nat → Prop} (h : Pays m c R) (hk : ∀ a r, R a r → Pays (k a) r Q) :
    Pays (m >>= k) c Q := by
  intro s b s' e
  obtain ⟨a, s1, e1, e2⟩ := bind_inv e
  obtain ⟨r, h1, h2⟩ := h _ _ _ e1
  obtain ⟨r', h3, h4⟩ := hk a r h2 _ _ _ e2
  exact ⟨r', by omega, h4⟩
theorem Pays.of {m : M V α} {k c : Nat} {Q : α → Nat → Prop} (h : Cost m k) (hk : k ≤ c) (hq : ∀ a, Q a (c - k)) : Pays m c Q := by
  unfold Cost at h
  intro s a s' e
  have := h _ _ _ e
  exact ⟨c - k, by omega, hq a⟩
/-- the next statement costs at most `k` -/
theorem Pays.step {m : M V α} {K : α → M V β} {k c : Nat} {Q : β → Nat → Prop} (h : Cost m k) (hk : k ≤ c) (hK : ∀ a, Pays (K a) (c - k) Q) : Pays (m >>= K) c Q :=
  Pays.bind (R := fun _ r => r = c - k) (Pays.of h hk fun _ => rfl) fun a r hr => by rw [hr]; exact hK a
theorem Pays.post {m : M V α} {c : Nat} {Q Q' : α → Nat → Prop} (h : Pays m c Q) (hq : ∀ a r, Q a r → Q' a r) : Pays m c Q' := by
  intro s a s' e
  obtain ⟨r, h1, h2⟩ := h _ _ _ e
  exact ⟨r, h1, hq a r h2⟩
theorem Pays.cost {m : M V α} {c : Nat} {Q : α → Nat → Prop} (h : Pays m c Q) : Cost m c := by
  unfold Cost
  intro s a s' e
  obtain ⟨r, h1, _⟩ := h _ _ _ e
  omega
theorem Pays.ub {c : Nat} {Q : α → Nat → Prop} : Pays (ub : M V α) c Q := by
  intro s a s' e
  cases e

end CC

namespace CC.Algo
open CC
variable {V α β : Type} {c d e : Slots} {first last n : Nat} {pred : V → Bool} {comp eq : V → V → Bool}

theorem cost_cmp (comp : V → V → Bool) (l r : Loc) : Cost (cmp comp l r) 2 := by unfold cmp; cost
theorem cost_test (p : V → Bool) (l : Loc) : Cost (test p l) 1 := by unfold test; cost
theorem cost_wr (l : Loc) (v : V) : Cost (wr l v) 2 := by unfold wr; cost
macro_rules | `(tactic| cost_fn) => `(tactic| exact cost_cmp _ _ _)
macro_rules | `(tactic| cost_fn) => `(tactic| exact cost_test _ _)
macro_rules | `(tactic| cost_fn) => `(tactic| exact cost_wr _ _)
theorem cost_asg (l r : Loc) : Cost (asg l r : M V Unit) 3 := by unfold asg; cost
theorem cost_dec (i : Nat) : Cost (dec i : M V Nat) 0 := by unfold dec; cost
macro_rules | `(tactic| cost_fn) => `(tactic| exact cost_asg _ _)
macro_rules | `(tactic| cost_fn) => `(tactic| exact cost_dec _)
theorem cost_swp (x y : Loc) : Cost (swp x y : M V Unit) 6 := by unfold swp; cost
macro_rules | `(tactic| cost_fn) => `(tactic| exact cost_swp _ _)

/-- a loop over a range: `ih` is the induction hypothesis -/
macro "loop" ih:ident : tactic => `(tactic| (apply Cost.mono; (focus (repeat' first | (exact $ih (by omega)) | cost_step)); (try simp only [Nat.mul_succ]); omega))

/-- the same with a condition whose cost is given by `hc` -/
macro "loopc" hc:ident ih:ident : tactic => `(tactic| (apply Cost.mono; (focus (repeat' first | (exact $hc _) | (exact $hc _ _) | (exact $ih (by omega)) | (exact $ih) | cost_step)); (try simp only [Nat.mul_succ]); omega))

/-! ## single passes -/

theorem scan_pays {cond : Nat → M V Bool} {k : Nat} (hc : ∀ i, Cost (cond i) k) {b : Nat} (h : first ≤ last) (hb : k * (last - first) ≤ b) :
    Pays (scan cond first last) b (fun r b' => first ≤ r ∧ r ≤ last ∧ b ≤ b' + k * (r - first) + (if r = last then 0 else k)) := by
  obtain ⟨n, rfl⟩ := Nat.exists_eq_add_of_le h
  rw [Nat.add_sub_cancel_left] at hb
  clear h
  induction n generalizing first b with
  | zero =>
    rw [scan, if_neg (by omega)]
    exact Pays.ret ⟨by omega, by omega, by simp⟩
  | succ n ih =>
    rw [scan, if_pos (by omega)]
    rw [Nat.mul_succ] at hb
    refine Pays.step (hc _) (by omega) fun a => ?_
    cases a with
    | false =>
      rw [if_neg (by simp)]
      exact Pays.ret ⟨by omega, by omega, by rw [if_neg (by omega)]; simp; omega⟩
    | true =>
      rw [if_pos rfl, show first + (n + 1) = first + 1 + n by omega]
      refine Pays.post (ih (by omega)) fun r b' ⟨h1, h2, h3⟩ => ⟨by omega, by omega, ?_⟩
      have : k * (r - first) = k * (r - (first + 1)) + k := by rw [← Nat.mul_succ]; congr 1; omega
      omega

theorem scan_cost {cond : Nat → M V Bool} {k : Nat} (hc : ∀ i, Cost (cond i) k) (h : first ≤ last) : Cost (scan cond first last) (k * (last - first)) :=
  (scan_pays hc h (Nat.le_refl _)).cost

theorem countLoop_cost {cond : Nat → M V Bool} {k m : Nat} (hc : ∀ i, Cost (cond i) k) (h : last = first + n) : Cost (countLoop cond first last m) (k * n) := by
  induction n generalizing first m with
  | zero => rw [countLoop, if_neg (by omega)]; exact (Cost.pure _).mono (by omega)
  | succ n ih =>
    rw [countLoop, if_pos (by omega)]
    loopc hc ih

theorem forEachLoop_cost {op : Loc → M V Unit} {k m : Nat} (hc : ∀ l, Cost (op l) k) (h : last = first + n) : Cost (forEachLoop c op first last m) (k * n) := by
  induction n generalizing first m with
  | zero => rw [forEachLoop, if_neg (by omega)]; exact (Cost.pure _).mono (by omega)
  | succ n ih =>
    rw [forEachLoop, if_pos (by omega)]
    loopc hc ih

theorem forEachN_cost {op : Loc → M V Unit} {k : Nat} (hc : ∀ l, Cost (op l) k) : Cost (forEachN c first n op) (k * n) := by
  induction n generalizing first with
  | zero => rw [forEachN]; exact (Cost.pure _).mono (by omega)
  | succ n ih =>
    rw [forEachN]
    loopc hc ih

theorem mismatchLoop_cost {j : Nat} (h : last = first + n) : Cost (mismatchLoop c d comp first last j) (2 * n) := by
  induction n generalizing first j with
  | zero => rw [mismatchLoop, if_neg (by omega)]; exact (Cost.pure _).mono (by omega)
  | succ n ih => rw [mismatchLoop, if_pos (by omega)]; loop ih

theorem amongLoop_cost {l : Loc} (h : last = first + n) : Cost (amongLoop l d comp first last) (2 * n) := by
  induction n generalizing first with
  | zero => rw [amongLoop, if_neg (by omega)]; exact (Cost.pure _).mono (by omega)
  | succ n ih => rw [amongLoop, if_pos (by omega)]; loop ih

theorem adjacentLoop_cost {j : Nat} (h : last = first + n) : Cost (adjacentLoop c comp j first last) (2 * n) := by
  induction n generalizing first j with
  | zero => rw [adjacentLoop, if_neg (by omega)]; exact (Cost.pure _).mono (by omega)
  | succ n ih => rw [adjacentLoop, if_pos (by omega)]; loop ih

theorem matchLoop_cost {s sLast : Nat} (h : sLast = s + n) : Cost (matchLoop c d comp first last s sLast) (2 * n) := by
  induction n generalizing first s with
  | zero => rw [matchLoop, if_neg (by omega)]; exact (Cost.pure _).mono (by omega)
  | succ n ih => rw [matchLoop]; loop ih

theorem copyLoop_cost {j m : Nat} (h : last = first + n) : Cost (copyLoop c d first last j m : M V _) (3 * n) := by
  induction n generalizing first j m with
  | zero => rw [copyLoop, if_neg (by omega)]; exact (Cost.pure _).mono (by omega)
  | succ n ih => rw [copyLoop, if_pos (by omega)]; loop ih

theorem copyIfLoop_cost {cond : Nat → M V Bool} {k j m : Nat} (hc : ∀ i, Cost (cond i) k) (h : last = first + n) :
    Cost (copyIfLoop cond c d first last j m) ((k + 3) * n) := by
  induction n generalizing first j m with
  | zero => rw [copyIfLoop, if_neg (by omega)]; exact (Cost.pure _).mono (by omega)
  | succ n ih =>
    rw [copyIfLoop, if_pos (by omega)]
    loopc hc ih

theorem copyBackwardLoop_cost {j m : Nat} (h : last = first + n) : Cost (copyBackwardLoop c d first last j m : M V _) (3 * n) := by
  induction n generalizing last j m with
  | zero => rw [copyBackwardLoop, if_neg (by omega)]; exact (Cost.pure _).mono (by omega)
  | succ n ih =>
    rw [copyBackwardLoop, if_pos (by omega)]
    unfold dec
    rw [if_neg (by omega), pure_bind]
    loop ih

theorem fillLoop_cost {v : Loc} {m : Nat} (h : last = first + n) : Cost (fillLoop c v first last m : M V _) (3 * n) := by
  induction n generalizing first m with
  | zero => rw [fillLoop, if_neg (by omega)]; exact (Cost.pure _).mono (by omega)
  | succ n ih => rw [fillLoop, if_pos (by omega)]; loop ih

theorem fillN_cost {v : Loc} : Cost (fillN c first n v : M V _) (3 * n) := by
  induction n generalizing first with
  | zero => rw [fillN]; exact (Cost.pure _).mono (by omega)
  | succ n ih =>
    rw [fillN]
    apply Cost.mono
    · exact Cost.bind (cost_asg _ _) fun b => ih
    · simp only [Nat.mul_succ]; omega

theorem transformLoop_cost {op : V → V} {j m : Nat} (h : last = first + n) : Cost (transformLoop c d op first last j m) (3 * n) := by
  induction n generalizing first j m with
  | zero => rw [transformLoop, if_neg (by omega)]; exact (Cost.pure _).mono (by omega)
  | succ n ih => rw [transformLoop, if_pos (by omega)]; loop ih

theorem generateLoop_cost {gen : Nat → V} {t m : Nat} (h : last = first + n) : Cost (generateLoop c gen t first last m) (6 * n) := by
  induction n generalizing first m with
  | zero => rw [generateLoop, if_neg (by omega)]; exact (Cost.pure _).mono (by omega)
  | succ n ih => rw [generateLoop, if_pos (by omega)]; loop ih

theorem generateNLoop_cost {gen : Nat → V} {t k : Nat} : Cost (generateNLoop c gen t first k n) (6 * n) := by
  induction n generalizing first k with
  | zero => rw [generateNLoop]; exact (Cost.pure _).mono (by omega)
  | succ n ih =>
    rw [generateNLoop]
    apply Cost.mono
    · (focus (repeat' first | (exact ih) | cost_step))
    · simp only [Nat.mul_succ]; omega

theorem removeLoop_cost {gone : Nat → M V Bool} {k j m : Nat} (hc : ∀ i, Cost (gone i) k) (h : last = first + n) :
    Cost (removeLoop gone c j first last m) ((k + 3) * n) := by
  induction n generalizing first j m with
  | zero => rw [removeLoop, if_neg (by omega)]; exact (Cost.pure _).mono (by omega)
  | succ n ih =>
    rw [removeLoop, if_pos (by omega)]
    loopc hc ih

theorem replaceLoop_cost {cond : Nat → M V Bool} {v : Loc} {k m : Nat} (hc : ∀ i, Cost (cond i) k) (h : last = first + n) :
    Cost (replaceLoop cond c v first last m) ((k + 3) * n) := by
  induction n generalizing first m with
  | zero => rw [replaceLoop, if_neg (by omega)]; exact (Cost.pure _).mono (by omega)
  | succ n ih =>
    rw [replaceLoop, if_pos (by omega)]
    loopc hc ih

theorem replaceCopyLoop_cost {cond : Nat → M V Bool} {v : Loc} {k j m : Nat} (hc : ∀ i, Cost (cond i) k) (h : last = first + n) :
    Cost (replaceCopyLoop cond c d v first last j m) ((k + 3) * n) := by
  induction n generalizing first j m with
  | zero => rw [replaceCopyLoop, if_neg (by omega)]; exact (Cost.pure _).mono (by omega)
  | succ n ih =>
    rw [replaceCopyLoop, if_pos (by omega)]
    loopc hc ih

theorem swapRangeLoop_cost {j m : Nat} (h : last = first + n) : Cost (swapRangeLoop c d first last j m : M V _) (6 * n) := by
  induction n generalizing first j m with
  | zero => rw [swapRangeLoop, if_neg (by omega)]; exact (Cost.pure _).mono (by omega)
  | succ n ih => rw [swapRangeLoop, if_pos (by omega)]; loop ih

theorem reverseLoop_cost {m : Nat} (h : last = first + n) : Cost (reverseLoop c first last m : M V _) (3 * n) := by
  induction n using Nat.strongRecOn generalizing first last m with
  | _ n ih =>
    rw [reverseLoop]
    by_cases h0 : first ≠ last
    · rw [if_pos h0]
      unfold dec
      rw [if_neg (by omega), pure_bind]
      by_cases h1 : first ≠ last - 1
      · rw [if_pos h1]
        apply Cost.mono
        · exact Cost.bind (cost_swp _ _) fun _ => ih (n - 2) (by omega) (by omega)
        · omega
      · rw [if_neg h1]
        exact (ih (n - 1) (by omega) (by omega)).mono (by omega)
    · rw [if_neg h0]; exact (Cost.pure _).mono (by omega)

theorem reverseCopyLoop_cost {j m : Nat} (h : last = first + n) : Cost (reverseCopyLoop c d first last j m : M V _) (3 * n) := by
  induction n generalizing last j m with
  | zero => rw [reverseCopyLoop, if_neg (by omega)]; exact (Cost.pure _).mono (by omega)
  | succ n ih =>
    rw [reverseCopyLoop, if_pos (by omega)]
    unfold dec
    rw [if_neg (by omega), pure_bind]
    loop ih

theorem shuffleLoop_cost {r : Nat → Nat} : Cost (shuffleLoop c first r n : M V _) (6 * n) := by
  induction n with
  | zero => rw [shuffleLoop]; exact (Cost.pure _).mono (by omega)
  | succ n ih =>
    rw [shuffleLoop]
    apply Cost.mono
    · exact Cost.bind (cost_swp _ _) fun b => ih
    · simp only [Nat.mul_succ]; omega

theorem uniqueLoop_cost {j m : Nat} (h : last = first + n) : Cost (uniqueLoop c comp j first last m) (5 * n) := by
  induction n generalizing first j m with
  | zero => rw [uniqueLoop, if_neg (by omega)]; exact (Cost.pure _).mono (by omega)
  | succ n ih => rw [uniqueLoop, if_pos (by omega)]; loop ih

theorem uniqueCopyLoop_cost {j m : Nat} (h : last = first + n) : Cost (uniqueCopyLoop c d comp first last j m) (5 * n) := by
  induction n generalizing first j m with
  | zero => rw [uniqueCopyLoop, if_neg (by omega)]; exact (Cost.pure _).mono (by omega)
  | succ n ih => rw [uniqueCopyLoop, if_pos (by omega)]; loop ih

theorem extLoop_cost {better : Nat → Nat → M V Bool} {k j : Nat} (hc : ∀ i j, Cost (better i j) k) (h : last = first + (n + 1)) :
    Cost (extLoop better j first last) (k * n) := by
  induction n generalizing first j with
  | zero =>
    rw [extLoop, if_pos (by omega), if_neg (by omega), extLoop, if_neg (by omega)]
    exact (Cost.pure _).mono (by omega)
  | succ n ih =>
    rw [extLoop, if_pos (by omega), if_pos (by omega)]
    loopc hc ih

theorem minmaxLoop_cost {j j' : Nat} (h : last = first + (n + 1)) : Cost (minmaxLoop c comp j j' first last) (4 * n) := by
  induction n generalizing first j j' with
  | zero =>
    rw [minmaxLoop, if_pos (by omega), if_neg (by omega), minmaxLoop, if_neg (by omega)]
    exact (Cost.pure _).mono (by omega)
  | succ n ih => rw [minmaxLoop, if_pos (by omega), if_pos (by omega)]; loop ih

theorem skipTrue_pays {b : Nat} (h : first ≤ last) (hb : last - first ≤ b) :
    Pays (skipTrue c pred first last) b (fun r b' => first ≤ r ∧ r ≤ last ∧ b ≤ b' + (r - first) + (if r = last then 0 else 1)) := by
  obtain ⟨n, rfl⟩ := Nat.exists_eq_add_of_le h
  rw [Nat.add_sub_cancel_left] at hb
  clear h
  induction n generalizing first b with
  | zero =>
    rw [skipTrue, if_neg (by omega)]
    exact Pays.ret ⟨by omega, by omega, by simp⟩
  | succ n ih =>
    rw [skipTrue, if_pos (by omega)]
    refine Pays.step (cost_test _ _) (by omega) fun a => ?_
    cases a with
    | false =>
      rw [if_neg (by simp)]
      exact Pays.ret ⟨by omega, by omega, by rw [if_neg (by omega)]; simp; omega⟩
    | true =>
      rw [if_pos rfl, show first + (n + 1) = first + 1 + n by omega]
      exact Pays.post (ih (by omega)) fun r b' ⟨h1, h2, h3⟩ => ⟨by omega, by omega, by omega⟩

theorem noneTrue_cost (h : last = first + n) : Cost (noneTrue c pred first last) n := by
  induction n generalizing first with
  | zero => rw [noneTrue, if_neg (by omega)]; exact (Cost.pure _).mono (by omega)
  | succ n ih => rw [noneTrue, if_pos (by omega)]; loop ih

theorem partitionLoop_cost {j : Nat} (h : last = first + n) : Cost (partitionLoop c pred j first last) (7 * n) := by
  induction n generalizing first j with
  | zero => rw [partitionLoop, if_neg (by omega)]; exact (Cost.pure _).mono (by omega)
  | succ n ih => rw [partitionLoop, if_pos (by omega)]; loop ih

theorem partitionCopyLoop_cost {i j m : Nat} (h : last = first + n) : Cost (partitionCopyLoop c d e pred first last i j m) (4 * n) := by
  induction n generalizing first i j m with
  | zero => rw [partitionCopyLoop, if_neg (by omega)]; exact (Cost.pure _).mono (by omega)
  | succ n ih => rw [partitionCopyLoop, if_pos (by omega)]; loop ih

theorem sortedLoop_cost {j : Nat} (h : last = first + n) : Cost (sortedLoop c comp j first last) (2 * n) := by
  induction n generalizing first j with
  | zero => rw [sortedLoop, if_neg (by omega)]; exact (Cost.pure _).mono (by omega)
  | succ n ih => rw [sortedLoop, if_pos (by omega)]; loop ih

/-! ## halving -/

theorem boundLoop_cost {right : Nat → M V Bool} {w k : Nat} (hc : ∀ i, Cost (right i) w) (h : n < 2 ^ k) : Cost (boundLoop right first n) (w * k) := by
  induction k generalizing first n with
  | zero =>
    rw [boundLoop, if_neg (by simp at h; omega)]
    exact (Cost.pure _).mono (by omega)
  | succ k ih =>
    rw [boundLoop]
    rw [Nat.pow_succ] at h
    loopc hc ih

/-! ## heaps -/

theorem pushLoop_cost {v : V} {k : Nat} (h : n + 1 < 2 ^ (k + 1)) : Cost (pushLoop c first comp v n) (4 * k) := by
  induction k generalizing n with
  | zero =>
    rw [pushLoop, if_neg (by simp at h; omega)]
    exact (Cost.pure _).mono (by omega)
  | succ k ih =>
    rw [pushLoop]
    rw [Nat.pow_succ] at h
    loop ih

theorem popLoop_cost {len k : Nat} (h : len < (n + 1) * 2 ^ (k + 1)) : Cost (popLoop c first len n comp) (10 * k) := by
  induction k generalizing n with
  | zero =>
    rw [popLoop, if_neg (by simp at h; omega)]
    exact (Cost.pure _).mono (by omega)
  | succ k ih =>
    rw [popLoop]
    have h1 : len < (2 * (n + 1) + 1) * 2 ^ (k + 1) := by
      refine Nat.lt_of_lt_of_le h ?_
      rw [Nat.pow_succ 2 (k + 1), Nat.mul_comm (2 ^ (k + 1)) 2, ← Nat.mul_assoc]
      exact Nat.mul_le_mul_right _ (by omega)
    have h2 : len < (2 * n + 1 + 1) * 2 ^ (k + 1) := by
      refine Nat.lt_of_lt_of_le h ?_
      rw [Nat.pow_succ 2 (k + 1), Nat.mul_comm (2 ^ (k + 1)) 2, ← Nat.mul_assoc]
      exact Nat.mul_le_mul_right _ (by omega)
    apply Cost.mono
    · (focus (repeat' first | (exact ih h1) | (exact ih h2) | cost_step))
    · omega

theorem percolate_cost {len k : Nat} (h : len < (n + 1) * 2 ^ (k + 1)) : Cost (percolate c first len n comp) (10 * k) := by
  induction k generalizing n with
  | zero =>
    have h' : len < 2 * n + 2 := by simp at h; omega
    rw [percolate]
    dsimp only
    rw [if_neg (by omega), pure_bind, if_neg (by omega), pure_bind]
    simp only [Bool.false_eq_true, ↓reduceIte, ne_eq, not_true_eq_false]
    exact (Cost.pure _).mono (by omega)
  | succ k ih =>
    rw [percolate]
    dsimp only
    have h2 : ∀ j, 2 * n + 2 ≤ j + 1 → len < (j + 1) * 2 ^ (k + 1) := by
      intro j hj
      refine Nat.lt_of_lt_of_le h ?_
      rw [Nat.pow_succ 2 (k + 1), Nat.mul_comm (2 ^ (k + 1)) 2, ← Nat.mul_assoc]
      exact Nat.mul_le_mul_right _ (by omega)
    apply Cost.mono
    · refine Cost.bind (c := 2) (d := 2 + (6 + 10 * k)) ((Cost.ite (cost_cmp _ _ _) (Cost.pure _)).mono (by omega)) fun b1 => ?_
      refine Cost.bind ((Cost.ite (cost_cmp _ _ _) (Cost.pure _)).mono (by omega)) fun b2 => ?_
      generalize hsw : (if b2 = true then 2 * (n + 1) else if b1 = true then 2 * n + 1 else n) = sw
      by_cases hne : sw ≠ n
      · rw [if_pos hne]
        refine Cost.bind (cost_swp _ _) fun _ => ih (h2 _ ?_)
        subst hsw
        cases b1 <;> cases b2 <;> simp at hne ⊢ <;> omega
      · rw [if_neg hne]
        exact (Cost.pure _).mono (by omega)
    · omega

theorem heapifyLoop_flat {len k m j : Nat} (hm : m ≤ j) (h : len < (m + 1) * 2 ^ (k + 1)) {b : Nat} (hr : Cost (heapifyLoop c first len comp m) b) :
    Cost (heapifyLoop c first len comp j) (b + (j - m) * (10 * k)) := by
  obtain ⟨n, rfl⟩ := Nat.exists_eq_add_of_le hm
  rw [Nat.add_sub_cancel_left]
  induction n with
  | zero => exact hr.mono (by omega)
  | succ n ih =>
    rw [show m + (n + 1) = (m + n) + 1 by omega, heapifyLoop]
    apply Cost.mono
    · refine Cost.bind (percolate_cost (k := k) ?_) fun _ => ih (by omega)
      exact Nat.lt_of_lt_of_le h (Nat.mul_le_mul_right _ (by omega))
    · rw [show (n + 1) * (10 * k) = n * (10 * k) + 10 * k from Nat.succ_mul _ _]; omega

theorem heapifyLoop_cost {len k j : Nat} (h : len < (j + 1) * 2 ^ (k + 1)) : Cost (heapifyLoop c first len comp j) (10 * (j * (k + 2))) := by
  induction j using Nat.strongRecOn generalizing k with
  | _ j ih =>
    by_cases h0 : j = 0
    · subst h0
      rw [heapifyLoop]
      exact (Cost.pure _).mono (by omega)
    · have h1 : len < (j / 2 + 1) * 2 ^ (k + 1 + 1) := by
        refine Nat.lt_of_lt_of_le h ?_
        rw [Nat.pow_succ 2 (k + 1), Nat.mul_comm (2 ^ (k + 1)) 2, ← Nat.mul_assoc]
        exact Nat.mul_le_mul_right _ (by omega)
      have h2 := heapifyLoop_flat (c := c) (first := first) (comp := comp) (k := k + 1) (m := j / 2) (j := j) (by omega) h1 (ih (j / 2) (by omega) h1)
      refine h2.mono ?_
      obtain ⟨a, ha⟩ : ∃ a, j = j / 2 + a := ⟨j - j / 2, by omega⟩
      have hma : j / 2 ≤ a := by omega
      clear h h1 h2 ih
      generalize j / 2 = m at *
      subst ha
      rw [Nat.add_sub_cancel_left]
      simp only [Nat.add_mul, Nat.mul_add]
      have := Nat.mul_comm k a
      have := Nat.mul_comm k m
      have h3 : a * (10 * (k + 1)) = 10 * (a * k) + 10 * a := by
        rw [Nat.mul_left_comm, Nat.mul_add, Nat.mul_one, Nat.mul_add]
      simp only [Nat.mul_add, Nat.mul_one] at h3 ⊢
      have h4 : a * (10 * k) = 10 * (a * k) := by rw [Nat.mul_left_comm]
      omega


/-! ## nested and repeated searches -/

theorem findFirstOfLoop_pays {sFirst sLast b : Nat} (hs : sFirst ≤ sLast) (h : first ≤ last) (hb : 2 * (sLast - sFirst) * (last - first) ≤ b) :
    Pays (findFirstOfLoop c d comp first last sFirst sLast) b
      (fun r b' => r.1 = true → first ≤ r.2 ∧ r.2 < last ∧ 2 * (sLast - sFirst) * (last - (r.2 + 1)) ≤ b') := by
  generalize hw : 2 * (sLast - sFirst) = w at *
  obtain ⟨n, rfl⟩ := Nat.exists_eq_add_of_le h
  rw [Nat.add_sub_cancel_left] at hb
  clear h
  induction n generalizing first b with
  | zero =>
    rw [findFirstOfLoop, if_neg (by omega)]
    exact Pays.ret (by simp)
  | succ n ih =>
    rw [findFirstOfLoop, if_pos (by omega)]
    rw [Nat.mul_succ] at hb
    refine Pays.step (amongLoop_cost (n := sLast - sFirst) (by omega)) (by omega) fun a => ?_
    cases a with
    | true =>
      rw [if_pos rfl]
      refine Pays.ret fun _ => ⟨Nat.le_refl _, by dsimp only; omega, ?_⟩
      dsimp only
      rw [show first + (n + 1) - (first + 1) = n by omega]
      omega
    | false =>
      rw [if_neg (by simp), show first + (n + 1) = first + 1 + n by omega]
      refine Pays.post (ih (by omega)) fun r b' hr h1 => ?_
      obtain ⟨h2, h3, h4⟩ := hr h1
      exact ⟨by omega, h3, h4⟩

theorem searchLoop_pays {sFirst sLast b : Nat} (hs : sFirst ≤ sLast) (h : first ≤ last) (hb : 2 * (sLast - sFirst) * (last - first) ≤ b) :
    Pays (searchLoop c d comp first last sFirst sLast) b
      (fun r b' => r.1 = true → first ≤ r.2 ∧ r.2 < last ∧ 2 * (sLast - sFirst) * (last - (r.2 + 1)) ≤ b') := by
  generalize hw : 2 * (sLast - sFirst) = w at *
  obtain ⟨n, rfl⟩ := Nat.exists_eq_add_of_le h
  rw [Nat.add_sub_cancel_left] at hb
  clear h
  induction n generalizing first b with
  | zero =>
    rw [searchLoop, if_neg (by omega)]
    exact Pays.ret (by simp)
  | succ n ih =>
    rw [searchLoop, if_pos (by omega)]
    rw [Nat.mul_succ] at hb
    refine Pays.step (matchLoop_cost (n := sLast - sFirst) (by omega)) (by omega) fun a => ?_
    by_cases ha : a = sLast
    · rw [if_pos ha]
      refine Pays.ret fun _ => ⟨Nat.le_refl _, by dsimp only; omega, ?_⟩
      dsimp only
      rw [show first + (n + 1) - (first + 1) = n by omega]
      omega
    · rw [if_neg ha, show first + (n + 1) = first + 1 + n by omega]
      refine Pays.post (ih (by omega)) fun r b' hr h1 => ?_
      obtain ⟨h2, h3, h4⟩ := hr h1
      exact ⟨by omega, h3, h4⟩

/-- repeated searches whose cost is proportional to how far they get -/
theorem lastLoop_cost {search : Nat → M V (Bool × Nat)} {w : Nat} {acc : Bool × Nat}
    (hs : ∀ f b, f ≤ last → w * (last - f) ≤ b → Pays (search f) b (fun r b' => r.1 = true → f ≤ r.2 ∧ r.2 < last ∧ w * (last - (r.2 + 1)) ≤ b'))
    (h : first ≤ last) : Cost (lastLoop search first acc) (w * (last - first)) := by
  suffices hp : ∀ b, w * (last - first) ≤ b → Pays (lastLoop search first acc) b (fun _ _ => True) from (hp _ (Nat.le_refl _)).cost
  induction hn : last - first using Nat.strongRecOn generalizing first acc with
  | _ n ih =>
    subst hn
    intro b hb
    rw [lastLoop]
    refine Pays.bind (hs first b h hb) fun r b' hr => ?_
    by_cases h1 : r.1 = true
    · rw [if_pos h1]
      obtain ⟨h2, h3, h4⟩ := hr h1
      exact ih _ (by omega) (by omega) rfl b' h4
    · rw [if_neg h1]
      exact Pays.ret trivial

/-- repeated searches, each of cost at most `w` -/
theorem lastLoop_calls {search : Nat → M V (Bool × Nat)} {w : Nat} {acc : Bool × Nat}
    (hs : ∀ f, f ≤ last → Pays (search f) w (fun r _ => r.1 = true → f ≤ r.2 ∧ r.2 < last))
    (h : first ≤ last) : Cost (lastLoop search first acc) (w * (last - first + 1)) := by
  obtain ⟨n, rfl⟩ := Nat.exists_eq_add_of_le h
  rw [Nat.add_sub_cancel_left]
  suffices hp : ∀ m f acc, f + m = first + n → Pays (lastLoop search f acc) (w * (m + 1)) (fun _ _ => True) from (hp n first acc rfl).cost
  intro m
  induction m using Nat.strongRecOn with
  | _ m ih =>
    intro f acc hf
    rw [lastLoop]
    refine Pays.bind (R := fun r b' => (r.1 = true → f ≤ r.2 ∧ r.2 < first + n) ∧ b' = w * m) ?_ fun r b' hr => ?_
    · intro s a s' e
      obtain ⟨r, h1, h2⟩ := hs f (by omega) s a s' e
      exact ⟨w * m, by rw [Nat.mul_succ]; omega, h2, rfl⟩
    · obtain ⟨hr, rfl⟩ := hr
      by_cases h1 : r.1 = true
      · rw [if_pos h1]
        obtain ⟨h2, h3⟩ := hr h1
        have h4 := ih (f + m - (r.2 + 1)) (by omega) (r.2 + 1) (true, r.2) (by omega)
        intro s a s' e
        obtain ⟨q, h5, _⟩ := h4 s a s' e
        refine ⟨0, ?_, trivial⟩
        have : w * (f + m - (r.2 + 1) + 1) ≤ w * m := Nat.mul_le_mul_left _ (by omega)
        omega
      · rw [if_neg h1]
        exact Pays.ret trivial

theorem findBy_pays {v : Loc} {b : Nat} (h : first ≤ last) (hb : 2 * (last - first) ≤ b) :
    Pays (findBy c first last v comp) b (fun r b' => first ≤ r.2 ∧ r.2 ≤ last ∧ (r.1 = true ↔ r.2 ≠ last) ∧
      b ≤ b' + 2 * (r.2 - first) + (if r.2 = last then 0 else 2)) := by
  unfold findBy
  refine Pays.bind (scan_pays (k := 2) (fun i => by cost) h hb) fun r b' hr => ?_
  refine Pays.ret ⟨hr.1, hr.2.1, by simp, hr.2.2⟩

theorem findIf_pays {b : Nat} (h : first ≤ last) (hb : last - first ≤ b) :
    Pays (findIf c first last pred) b (fun r b' => first ≤ r.2 ∧ r.2 ≤ last ∧ b ≤ b' + (r.2 - first) + (if r.2 = last then 0 else 1)) := by
  unfold findIf
  refine Pays.bind (scan_pays (k := 1) (fun i => by cost) h (by omega)) fun r b' hr => ?_
  refine Pays.ret ⟨hr.1, hr.2.1, by have := hr.2.2; simpa using this⟩

theorem findIfNot_pays {b : Nat} (h : first ≤ last) (hb : last - first ≤ b) :
    Pays (findIfNot c first last pred) b (fun r b' => first ≤ r.2 ∧ r.2 ≤ last ∧ b ≤ b' + (r.2 - first) + (if r.2 = last then 0 else 1)) := by
  unfold findIfNot
  refine Pays.bind (scan_pays (k := 1) (fun i => by cost) h (by omega)) fun r b' hr => ?_
  refine Pays.ret ⟨hr.1, hr.2.1, by have := hr.2.2; simpa using this⟩

theorem runLoop_pays {v : Loc} {m b : Nat} (h : first ≤ last) (hb : 2 * (last - first) ≤ b) :
    Pays (runLoop c v comp m first last) b (fun r b' => first ≤ r.2 ∧ r.2 ≤ last ∧ b ≤ b' + 2 * (r.2 - first) + (if r.2 = last then 0 else 2)) := by
  obtain ⟨n, rfl⟩ := Nat.exists_eq_add_of_le h
  rw [Nat.add_sub_cancel_left] at hb
  clear h
  induction n generalizing first m b with
  | zero =>
    rw [runLoop, if_neg (by omega)]
    exact Pays.ret ⟨by dsimp only; omega, by dsimp only; omega, by simp⟩
  | succ n ih =>
    rw [runLoop]
    by_cases h0 : m ≠ 0 ∧ first ≠ first + (n + 1)
    · rw [if_pos h0]
      refine Pays.step (cost_cmp _ _ _) (by omega) fun a => ?_
      cases a with
      | false =>
        rw [if_neg (by simp)]
        exact Pays.ret ⟨by dsimp only; omega, by dsimp only; omega, by dsimp only; rw [if_neg (by omega)]; omega⟩
      | true =>
        rw [if_pos rfl, show first + (n + 1) = first + 1 + n by omega]
        exact Pays.post (ih (by omega)) fun r b' ⟨h1, h2, h3⟩ => ⟨by omega, by omega, by omega⟩
    · rw [if_neg h0]
      exact Pays.ret ⟨by dsimp only; omega, by dsimp only; omega, by dsimp only; split <;> omega⟩

theorem searchNLoop_pays {v : Loc} {m b : Nat} (h : first ≤ last) (hb : 4 * (last - first) ≤ b) :
    Pays (searchNLoop c v comp m first last) b (fun r _ => r.1 = true → first ≤ r.2 ∧ r.2 < last) := by
  induction hn : last - first using Nat.strongRecOn generalizing first b with
  | _ n ih =>
    subst hn
    rw [searchNLoop]
    refine Pays.bind (findBy_pays h (by omega)) fun r b1 ⟨h1, h2, h3, h4⟩ => ?_
    by_cases hr : r.1 = true
    · rw [if_pos hr]
      have hne := h3.1 hr
      rw [if_neg hne] at h4
      refine Pays.bind (runLoop_pays (by omega) (by omega)) fun q b2 ⟨q1, q2, q3⟩ => ?_
      by_cases hq : q.1 = 0
      · rw [if_pos hq]
        exact Pays.ret fun _ => ⟨h1, by dsimp only; omega⟩
      · rw [if_neg hq]
        refine Pays.post (ih _ (by omega) q2 ?_ rfl) fun r' _ hr' ht => ?_
        · split at q3 <;> omega
        · have := hr' ht; omega
    · rw [if_neg hr]
      exact Pays.ret (by simp)

/-! ## two ranges -/

variable {c' : Slots} {first1 last1 first2 last2 : Nat}

theorem includesLoop_cost {n2 : Nat} (h1 : last1 = first1 + n) : Cost (includesLoop c c' comp first1 last1 n2 last2) (4 * n) := by
  induction n generalizing first1 n2 with
  | zero => rw [includesLoop, if_neg (by omega)]; exact (Cost.pure _).mono (by omega)
  | succ n ih => rw [includesLoop]; loop ih

theorem lexLoop_cost {n2 : Nat} (h1 : last1 = first1 + n) : Cost (lexLoop c c' comp first1 last1 n2 last2) (4 * n) := by
  induction n generalizing first1 n2 with
  | zero => rw [lexLoop, if_neg (by omega)]; exact (Cost.pure _).mono (by omega)
  | succ n ih => rw [lexLoop]; loop ih

theorem copy_pays {j b m : Nat} (h : first ≤ last) (hb : 3 * (last - first) + m ≤ b) : Pays (copy c first last d j : M V _) b (fun _ b' => m ≤ b') := by
  unfold copy
  exact Pays.of (copyLoop_cost (n := last - first) (by omega)) (by omega) fun _ => by omega

/-- what is left to pay after the main loop of a set operation -/
def Rest (w first1 last1 first2 last2 : Nat) (p q b : Nat) : Prop := first1 ≤ p ∧ p ≤ last1 ∧ first2 ≤ q ∧ q ≤ last2 ∧ w * ((last1 - p) + (last2 - q)) ≤ b

theorem mergeLoop_pays {j m b : Nat} (h1 : first1 ≤ last1) (h2 : first2 ≤ last2) (hb : 5 * ((last1 - first1) + (last2 - first2)) ≤ b) :
    Pays (mergeLoop c c' d comp first1 last1 first2 last2 j m) b (fun r b' => Rest 5 first1 last1 first2 last2 r.1 r.2.1 b') := by
  induction hn : (last1 - first1) + (last2 - first2) using Nat.strongRecOn generalizing first1 first2 j m b with
  | _ n ih =>
    subst hn
    rw [mergeLoop]
    by_cases h0 : first1 ≠ last1 ∧ first2 ≠ last2
    · rw [if_pos h0]
      refine Pays.step (cost_cmp _ _ _) (by omega) fun a => ?_
      cases a with
      | true =>
        rw [if_pos rfl]
        refine Pays.step (cost_asg _ _) (by omega) fun _ => ?_
        refine Pays.post (ih _ (by omega) (by omega) (by omega) (by omega) rfl) fun r b' hr => ?_
        unfold Rest at *; omega
      | false =>
        rw [if_neg (by simp)]
        refine Pays.step (cost_asg _ _) (by omega) fun _ => ?_
        refine Pays.post (ih _ (by omega) (by omega) (by omega) (by omega) rfl) fun r b' hr => ?_
        unfold Rest at *; omega
    · rw [if_neg h0]
      exact Pays.ret (by unfold Rest; dsimp only; omega)

theorem differenceLoop_pays {j m b : Nat} (h1 : first1 ≤ last1) (h2 : first2 ≤ last2) (hb : 5 * (last1 - first1) ≤ b) :
    Pays (differenceLoop c c' d comp first1 last1 first2 last2 j m) b (fun r b' => first1 ≤ r.1 ∧ r.1 ≤ last1 ∧ 5 * (last1 - r.1) ≤ b') := by
  induction hn : (last1 - first1) using Nat.strongRecOn generalizing first1 first2 j m b with
  | _ n ih =>
    subst hn
    rw [differenceLoop]
    by_cases h0 : first1 ≠ last1 ∧ first2 ≠ last2
    · rw [if_pos h0]
      refine Pays.step (cost_cmp _ _ _) (by omega) fun a => ?_
      cases a with
      | true =>
        rw [if_pos rfl]
        refine Pays.step (cost_asg _ _) (by omega) fun _ => ?_
        refine Pays.post (ih _ (by omega) (by omega) (by omega) (by omega) rfl) fun r b' hr => ?_
        omega
      | false =>
        rw [if_neg (by simp)]
        refine Pays.post (ih _ (by omega) (by omega) (by omega) (by omega) rfl) fun r b' hr => ?_
        omega
    · rw [if_neg h0]
      exact Pays.ret (by dsimp only; omega)

theorem intersectionLoop_pays {j m b : Nat} (h1 : first1 ≤ last1) (h2 : first2 ≤ last2) (hb : 4 * ((last1 - first1) + (last2 - first2)) ≤ b) :
    Pays (intersectionLoop c c' d comp first1 last1 first2 last2 j m) b (fun _ _ => True) := by
  induction hn : (last1 - first1) + (last2 - first2) using Nat.strongRecOn generalizing first1 first2 j m b with
  | _ n ih =>
    subst hn
    rw [intersectionLoop]
    by_cases h0 : first1 ≠ last1 ∧ first2 ≠ last2
    · rw [if_pos h0]
      refine Pays.step (cost_cmp _ _ _) (by omega) fun a => ?_
      cases a with
      | true =>
        rw [if_pos rfl]
        exact ih _ (by omega) (by omega) (by omega) (by omega) rfl
      | false =>
        rw [if_neg (by simp)]
        refine Pays.step (cost_cmp _ _ _) (by omega) fun a => ?_
        cases a with
        | true =>
          rw [if_pos rfl]
          exact ih _ (by omega) (by omega) (by omega) (by omega) rfl
        | false =>
          rw [if_neg (by simp)]
          refine Pays.step (cost_asg _ _) (by omega) fun _ => ?_
          exact ih _ (by omega) (by omega) (by omega) (by omega) rfl
    · rw [if_neg h0]
      exact Pays.ret trivial

theorem symDifferenceLoop_pays {j m b : Nat} (h1 : first1 ≤ last1) (h2 : first2 ≤ last2) (hb : 7 * ((last1 - first1) + (last2 - first2)) ≤ b) :
    Pays (symDifferenceLoop c c' d comp first1 last1 first2 last2 j m) b (fun r b' => Rest 7 first1 last1 first2 last2 r.1 r.2.1 b') := by
  induction hn : (last1 - first1) + (last2 - first2) using Nat.strongRecOn generalizing first1 first2 j m b with
  | _ n ih =>
    subst hn
    rw [symDifferenceLoop]
    by_cases h0 : first1 ≠ last1 ∧ first2 ≠ last2
    · rw [if_pos h0]
      refine Pays.step (cost_cmp _ _ _) (by omega) fun a => ?_
      cases a with
      | true =>
        rw [if_pos rfl]
        refine Pays.step (cost_asg _ _) (by omega) fun _ => ?_
        refine Pays.post (ih _ (by omega) (by omega) (by omega) (by omega) rfl) fun r b' hr => ?_
        unfold Rest at *; omega
      | false =>
        rw [if_neg (by simp)]
        refine Pays.step (cost_cmp _ _ _) (by omega) fun a => ?_
        cases a with
        | true =>
          rw [if_pos rfl]
          refine Pays.step (cost_asg _ _) (by omega) fun _ => ?_
          refine Pays.post (ih _ (by omega) (by omega) (by omega) (by omega) rfl) fun r b' hr => ?_
          unfold Rest at *; omega
        | false =>
          rw [if_neg (by simp)]
          refine Pays.post (ih _ (by omega) (by omega) (by omega) (by omega) rfl) fun r b' hr => ?_
          unfold Rest at *; omega
    · rw [if_neg h0]
      exact Pays.ret (by unfold Rest; dsimp only; omega)

theorem unionLoop_pays {j m b : Nat} (h1 : first1 ≤ last1) (h2 : first2 ≤ last2) (hb : 7 * ((last1 - first1) + (last2 - first2)) ≤ b) :
    Pays (unionLoop c c' d comp first1 last1 first2 last2 j m) b (fun r b' => Rest 7 first1 last1 first2 last2 r.1 r.2.1 b') := by
  induction hn : (last1 - first1) + (last2 - first2) using Nat.strongRecOn generalizing first1 first2 j m b with
  | _ n ih =>
    subst hn
    rw [unionLoop]
    by_cases h0 : first1 ≠ last1 ∧ first2 ≠ last2
    · rw [if_pos h0]
      refine Pays.step (cost_cmp _ _ _) (by omega) fun a => ?_
      cases a with
      | true =>
        rw [if_pos rfl]
        refine Pays.step (cost_asg _ _) (by omega) fun _ => ?_
        refine Pays.post (ih _ (by omega) (by omega) (by omega) (by omega) rfl) fun r b' hr => ?_
        unfold Rest at *; omega
      | false =>
        rw [if_neg (by simp)]
        refine Pays.step (cost_cmp _ _ _) (by omega) fun a => ?_
        cases a with
        | true =>
          rw [if_pos rfl]
          refine Pays.step (cost_asg _ _) (by omega) fun _ => ?_
          refine Pays.post (ih _ (by omega) (by omega) (by omega) (by omega) rfl) fun r b' hr => ?_
          unfold Rest at *; omega
        | false =>
          rw [if_neg (by simp)]
          refine Pays.step (cost_asg _ _) (by omega) fun _ => ?_
          refine Pays.post (ih _ (by omega) (by omega) (by omega) (by omega) rfl) fun r b' hr => ?_
          unfold Rest at *; omega
    · rw [if_neg h0]
      exact Pays.ret (by unfold Rest; dsimp only; omega)

/-! ## rotation -/

theorem rotateLoop1_pays {nf next b : Nat} (h1 : first < nf) (h2 : nf ≤ next) (h3 : next < last) (hb : 6 * (last - first) ≤ b) :
    Pays (rotateLoop1 c first nf next last : M V _) b (fun r b' => r.1 < r.2 ∧ r.2 ≤ last ∧ 6 * (last - r.1) ≤ b') := by
  induction hn : last - next using Nat.strongRecOn generalizing first nf next b with
  | _ n ih =>
    subst hn
    rw [rotateLoop1]
    refine Pays.step (cost_swp _ _) (by omega) fun _ => ?_
    dsimp only
    generalize hnf : (if first + 1 = nf then next + 1 else nf) = nf'
    have h4 : first + 1 < nf' ∧ nf' ≤ next + 1 := by rw [← hnf]; split <;> omega
    by_cases h0 : next + 1 ≠ last
    · rw [if_pos h0]
      exact ih _ (by omega) h4.1 h4.2 (by omega) (by omega) rfl
    · rw [if_neg h0]
      exact Pays.ret ⟨h4.1, by dsimp only; omega, by dsimp only; omega⟩

theorem rotateLoop2_cost {nf next : Nat} (h1 : first < nf) (h2 : nf ≤ next) (h3 : next ≤ last) (h : last = first + n) :
    Cost (rotateLoop2 c first nf next last : M V _) (6 * n) := by
  induction n generalizing first nf next with
  | zero => omega
  | succ n ih =>
    rw [rotateLoop2]
    by_cases h0 : next ≠ last
    · rw [if_pos h0]
      dsimp only
      generalize hnf : (if first + 1 = nf then next + 1 else nf) = nf'
      have h4 : first + 1 < nf' ∧ nf' ≤ next + 1 := by rw [← hnf]; split <;> omega
      apply Cost.mono
      · refine Cost.bind (cost_swp _ _) fun _ => ih h4.1 ?_ ?_ (by omega)
        · split <;> omega
        · split <;> omega
      · omega
    · rw [if_neg h0]
      exact (Cost.pure _).mono (by omega)

/-! ## whole heap operations -/

theorem pushHeap_cost {k : Nat} (h : last - first < 2 ^ (k + 1)) : Cost (pushHeap c first last comp) (4 * k + 3) := by
  unfold pushHeap dec
  split
  · exact (Cost.pure _).mono (by omega)
  · rw [if_neg (by omega), pure_bind]
    apply Cost.mono
    · refine Cost.bind (Cost.ldV _) fun v => Cost.bind (pushLoop_cost (k := k) (by omega)) fun _ => cost_wr _ _
    · omega

theorem popHeap_cost {k : Nat} (h : last - first < 2 ^ (k + 1)) : Cost (popHeap c first last comp) (10 * k + 6) := by
  unfold popHeap dec
  split
  · exact (Cost.pure _).mono (by omega)
  · rw [if_neg (by omega), pure_bind]
    apply Cost.mono
    · refine Cost.bind (cost_swp _ _) fun _ => popLoop_cost (k := k) (by omega)
    · omega

theorem makeHeap_cost : Cost (makeHeap c first last comp) (10 * (last - first)) := by
  unfold makeHeap heapify
  split
  · exact (Cost.pure _).mono (by omega)
  · refine (heapifyLoop_cost (k := 0) (by omega)).mono (by omega)

theorem sortHeapLoop_cost {k : Nat} (hk : n < 2 ^ (k + 1)) (h : last = first + n) : Cost (sortHeapLoop c first last comp) (n * (10 * k + 6)) := by
  induction n generalizing last with
  | zero => rw [sortHeapLoop, if_neg (by omega)]; exact (Cost.pure _).mono (by omega)
  | succ n ih =>
    rw [sortHeapLoop, if_pos (by omega)]
    unfold dec
    apply Cost.mono
    · refine Cost.bind (d := n * (10 * k + 6)) (popHeap_cost (k := k) (by omega)) fun _ => ?_
      rw [if_neg (by omega), pure_bind]
      exact ih (by omega) (by omega)
    · rw [show (n + 1) * (10 * k + 6) = n * (10 * k + 6) + (10 * k + 6) from Nat.succ_mul _ _]; omega

theorem sortHeap_cost {k : Nat} (h : first ≤ last) (hk : last - first < 2 ^ (k + 1)) : Cost (sortHeap c first last comp) ((last - first) * (10 * k + 6)) := by
  unfold sortHeap
  split
  · exact (Cost.pure _).mono (by omega)
  · exact sortHeapLoop_cost hk (by omega)

theorem partialSortLoop_cost {k middle it : Nat} (hk : middle - first < 2 ^ (k + 1)) (h : last = it + n) :
    Cost (partialSortLoop c comp first middle last it) (n * (14 * k + 17)) := by
  induction n generalizing it with
  | zero => rw [partialSortLoop, if_neg (by omega)]; exact (Cost.pure _).mono (by omega)
  | succ n ih =>
    rw [partialSortLoop, if_pos (by omega)]
    have hi := ih (it := it + 1) (by omega)
    apply Cost.mono
    · exact Cost.bind (cost_cmp comp _ _) fun _ => Cost.ite (Cost.bind (popHeap_cost hk) fun _ => Cost.bind (cost_swp _ _) fun _ =>
        Cost.bind (pushHeap_cost hk) fun _ => hi) hi
    · rw [show (n + 1) * (14 * k + 17) = n * (14 * k + 17) + (14 * k + 17) from Nat.succ_mul _ _]; omega

theorem partialSort_cost {k middle : Nat} (h1 : first ≤ middle) (h2 : middle ≤ last) (hk : middle - first < 2 ^ (k + 1)) :
    Cost (partialSort c first middle last comp) ((last - first) * (14 * k + 17)) := by
  unfold partialSort
  split
  · exact (Cost.pure _).mono (by omega)
  · apply Cost.mono
    · exact Cost.bind makeHeap_cost fun _ => Cost.bind (partialSortLoop_cost (n := last - middle) hk (by omega)) fun _ => sortHeap_cost h1 hk
    · rw [show last - first = (last - middle) + (middle - first) by omega, Nat.add_mul]
      have : 10 * (middle - first) + (middle - first) * (10 * k + 6) ≤ (middle - first) * (14 * k + 17) := by
        rw [Nat.mul_comm 10, ← Nat.mul_add]
        exact Nat.mul_le_mul_left _ (by omega)
      omega

theorem pscCopyLoop_pays {m it dt dLast b : Nat} (h1 : it ≤ last) (h2 : dt ≤ dLast) (hb : 3 * (last - it) ≤ b) :
    Pays (pscCopyLoop c d last dLast m it dt : M V _) b (fun r b' => it ≤ r.2.1 ∧ r.2.1 ≤ last ∧ dt ≤ r.2.2 ∧ r.2.2 ≤ dLast ∧
      r.2.2 - dt = r.2.1 - it ∧ b ≤ b' + 3 * (r.2.1 - it)) := by
  obtain ⟨n, rfl⟩ := Nat.exists_eq_add_of_le h1
  rw [Nat.add_sub_cancel_left] at hb
  clear h1
  induction n generalizing it dt m b with
  | zero =>
    rw [pscCopyLoop, if_neg (by omega)]
    exact Pays.ret (by dsimp only; omega)
  | succ n ih =>
    rw [pscCopyLoop]
    by_cases h0 : it ≠ it + (n + 1) ∧ dt ≠ dLast
    · rw [if_pos h0]
      refine Pays.step (cost_asg _ _) (by omega) fun _ => ?_
      rw [show it + (n + 1) = it + 1 + n by omega]
      exact Pays.post (ih (by omega) (by omega)) fun r b' hr => by omega
    · rw [if_neg h0]
      exact Pays.ret (by dsimp only; omega)

theorem pscLoop_cost {k dFirst dt it : Nat} (hk : dt - dFirst < 2 ^ (k + 1)) (h : last = it + n) :
    Cost (pscLoop c d comp last dFirst dt it) (n * (14 * k + 14)) := by
  induction n generalizing it with
  | zero => rw [pscLoop, if_neg (by omega)]; exact (Cost.pure _).mono (by omega)
  | succ n ih =>
    rw [pscLoop, if_pos (by omega)]
    have hi := ih (it := it + 1) (by omega)
    apply Cost.mono
    · exact Cost.bind (cost_cmp comp _ _) fun _ => Cost.ite (Cost.bind (popHeap_cost hk) fun _ => Cost.bind (cost_asg _ _) fun _ =>
        Cost.bind (pushHeap_cost hk) fun _ => hi) hi
    · rw [show (n + 1) * (14 * k + 14) = n * (14 * k + 14) + (14 * k + 14) from Nat.succ_mul _ _]; omega

theorem partialSortCopy_cost {k dFirst dLast : Nat} (h1 : first ≤ last) (h2 : dFirst ≤ dLast) (hk : dLast - dFirst < 2 ^ (k + 1)) :
    Cost (partialSortCopy c first last d dFirst dLast comp) ((last - first) * (14 * k + 19)) := by
  unfold partialSortCopy
  split
  · exact (Cost.pure _).mono (by omega)
  · refine Pays.cost (Q := fun _ _ => True) ?_
    refine Pays.bind (pscCopyLoop_pays h1 h2 ?_) fun r b1 ⟨a1, a2, a3, a4, a5, a6⟩ => ?_
    · rw [Nat.mul_comm]; exact Nat.mul_le_mul_left _ (by omega)
    · have hk' : r.2.2 - dFirst < 2 ^ (k + 1) := by omega
      have hx : (last - first) * (14 * k + 19) = (r.2.1 - first) * (14 * k + 19) + (last - r.2.1) * (14 * k + 19) := by
        rw [← Nat.add_mul]; congr 1; omega
      have hy : (last - r.2.1) * (14 * k + 14) ≤ (last - r.2.1) * (14 * k + 19) := Nat.mul_le_mul_left _ (by omega)
      have hz : 3 * (r.2.1 - first) + 10 * (r.2.1 - first) + (r.2.1 - first) * (10 * k + 6) ≤ (r.2.1 - first) * (14 * k + 19) := by
        rw [Nat.mul_comm 3, Nat.mul_comm 10, ← Nat.mul_add, ← Nat.mul_add]
        exact Nat.mul_le_mul_left _ (by omega)
      refine Pays.step makeHeap_cost (by rw [a5]; omega) fun _ => ?_
      refine Pays.step (pscLoop_cost (n := last - r.2.1) hk' (by omega)) (by rw [a5]; omega) fun _ => ?_
      refine Pays.step (sortHeap_cost a3 hk') (by rw [a5]; omega) fun _ => ?_
      exact Pays.ret trivial

theorem isHeapLoop_cost {p dist r : Nat} (hn : dist ≤ 2 * p + 1 + 2 * r) : Cost (isHeapLoop c first dist p comp) (4 * r) := by
  induction r generalizing p with
  | zero => rw [isHeapLoop, if_neg (by omega)]; exact (Cost.pure _).mono (by omega)
  | succ r ih =>
    rw [isHeapLoop]
    loop ih

theorem isHeapUntil_cost : Cost (isHeapUntil c first last comp) (2 * (last - first)) := by
  unfold isHeapUntil
  apply Cost.mono
  · exact Cost.bind (isHeapLoop_cost (r := (last - first) / 2) (by omega)) fun _ => Cost.pure _
  · omega

theorem isHeap_cost : Cost (isHeap c first last comp) (2 * (last - first)) := by
  unfold isHeap
  apply Cost.mono
  · exact Cost.bind isHeapUntil_cost fun _ => Cost.pure _
  · omega

end CC.Algo
