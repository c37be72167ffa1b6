import Verif.Algo.InPlace
import Verif.IAlgo.HeapRef
/-!
# Reading a source through `ref` or through `slots`

The algorithms on iterator objects refine programs on positions that read the source through `r.ref` and access the destination through `r.slots` (which is `r.ref` inside the container); if
source and destination are the same container both are the same.
-/
namespace CC.Algo
open CC
variable {V : Type} {c c' d e s s' : Slots} {i j i' j' a b n : Nat} {comp : V → V → Bool} {pred : V → Bool} {value : Loc}

/-- the same slots at the positions from `i` to `j` -/
def Agree (c c' : Slots) (i j : Nat) : Prop := ∀ k, i ≤ k → k < j → c k = c' k

theorem Agree.tail (h : Agree c c' i j) : Agree c c' (i + 1) j := fun k h1 h2 => h k (by omega) h2

theorem copyLoop_agree (hij : i ≤ j) (h : Agree c c' i j) : copyLoop (V := V) c d i j a n = copyLoop c' d i j a n := by
  induction hN : j - i generalizing i a n with
  | zero =>
    obtain rfl : i = j := by omega
    rw [copyLoop, if_neg (by simp), copyLoop, if_neg (by simp)]
  | succ N ih =>
    have h1 : i ≠ j := by omega
    conv => lhs; rw [copyLoop]
    conv => rhs; rw [copyLoop]
    rw [if_pos h1, if_pos h1, h i (by omega) (by omega), ih (by omega) h.tail (by omega)]

theorem copyIfLoop_agree {cond cond' : Nat → M V Bool} (hij : i ≤ j) (h : Agree c c' i j) (hc : ∀ k, i ≤ k → k < j → cond k = cond' k) :
    copyIfLoop cond c d i j a n = copyIfLoop cond' c' d i j a n := by
  induction hN : j - i generalizing i a n with
  | zero =>
    obtain rfl : i = j := by omega
    rw [copyIfLoop, if_neg (by simp), copyIfLoop, if_neg (by simp)]
  | succ N ih =>
    have h1 : i ≠ j := by omega
    have hc' : ∀ k, i + 1 ≤ k → k < j → cond k = cond' k := fun k h1 h2 => hc k (by omega) h2
    conv => lhs; rw [copyIfLoop]
    conv => rhs; rw [copyIfLoop]
    rw [if_pos h1, if_pos h1, h i (by omega) (by omega), hc i (by omega) (by omega)]
    refine bind_congr fun x => ?_
    split
    · rw [ih (by omega) h.tail hc' (by omega)]
    · rw [ih (by omega) h.tail hc' (by omega)]

theorem copyIf_agree (hij : i ≤ j) (h : Agree c c' i j) : copyIf c i j d a pred = copyIf c' i j d a pred := by
  unfold copyIf
  exact copyIfLoop_agree hij h fun k h1 h2 => by rw [h k h1 h2]

theorem removeCopy_agree (hij : i ≤ j) (h : Agree c c' i j) : removeCopy c i j d a value comp = removeCopy c' i j d a value comp := by
  unfold removeCopy
  exact copyIfLoop_agree hij h fun k h1 h2 => by rw [h k h1 h2]

theorem removeCopyIf_agree (hij : i ≤ j) (h : Agree c c' i j) : removeCopyIf c i j d a pred = removeCopyIf c' i j d a pred := by
  unfold removeCopyIf
  exact copyIfLoop_agree hij h fun k h1 h2 => by rw [h k h1 h2]

theorem uniqueCopyLoop_agree (hij : i ≤ j) (h : Agree c c' i j) : uniqueCopyLoop c d comp i j a n = uniqueCopyLoop c' d comp i j a n := by
  induction hN : j - i generalizing i a n with
  | zero =>
    obtain rfl : i = j := by omega
    rw [uniqueCopyLoop, if_neg (by simp), uniqueCopyLoop, if_neg (by simp)]
  | succ N ih =>
    have h1 : i ≠ j := by omega
    conv => lhs; rw [uniqueCopyLoop]
    conv => rhs; rw [uniqueCopyLoop]
    rw [if_pos h1, if_pos h1, h i (by omega) (by omega)]
    refine bind_congr fun x => ?_
    split
    · rw [ih (by omega) h.tail (by omega)]
    · rw [ih (by omega) h.tail (by omega)]

theorem uniqueCopy_agree (hij : i ≤ j) (h : Agree c c' i j) : uniqueCopy c i j d a comp = uniqueCopy c' i j d a comp := by
  unfold uniqueCopy
  by_cases h1 : i = j
  · rw [if_pos h1, if_pos h1]
  · rw [if_neg h1, if_neg h1, h i (by omega) (by omega), uniqueCopyLoop_agree (by omega) h.tail]

theorem partitionCopyLoop_agree (hij : i ≤ j) (h : Agree c c' i j) : partitionCopyLoop c d e pred i j a b n = partitionCopyLoop c' d e pred i j a b n := by
  induction hN : j - i generalizing i a b n with
  | zero =>
    obtain rfl : i = j := by omega
    rw [partitionCopyLoop, if_neg (by simp), partitionCopyLoop, if_neg (by simp)]
  | succ N ih =>
    have h1 : i ≠ j := by omega
    conv => lhs; rw [partitionCopyLoop]
    conv => rhs; rw [partitionCopyLoop]
    rw [if_pos h1, if_pos h1, h i (by omega) (by omega)]
    refine bind_congr fun x => ?_
    split
    · rw [ih (by omega) h.tail (by omega)]
    · rw [ih (by omega) h.tail (by omega)]

theorem partitionCopy_agree (hij : i ≤ j) (h : Agree c c' i j) : partitionCopy c i j d a e b pred = partitionCopy c' i j d a e b pred := partitionCopyLoop_agree hij h

theorem intersectionLoop_agree (hij : i ≤ j) (hij' : i' ≤ j') (h : Agree c c' i j) :
    intersectionLoop c s d comp i j i' j' a n = intersectionLoop c' s d comp i j i' j' a n := by
  induction hN : (j - i) + (j' - i') using Nat.strongRecOn generalizing i i' a n with
  | ind N ih =>
    conv => lhs; rw [intersectionLoop]
    conv => rhs; rw [intersectionLoop]
    by_cases h1 : i ≠ j ∧ i' ≠ j'
    · rw [if_pos h1, if_pos h1, h i (by omega) (by omega)]
      obtain ⟨h1, h2⟩ := h1
      refine bind_congr fun x => ?_
      split
      · exact ih _ (by omega) (by omega) hij' h.tail rfl
      · refine bind_congr fun x => ?_
        split
        · exact ih _ (by omega) hij (by omega) h rfl
        · refine bind_congr fun _ => ?_
          exact ih _ (by omega) (by omega) (by omega) h.tail rfl
    · rw [if_neg h1, if_neg h1]

theorem setIntersection_agree (hij : i ≤ j) (hij' : i' ≤ j') (h : Agree c c' i j) : setIntersection c i j s i' j' d a comp = setIntersection c' i j s i' j' d a comp := intersectionLoop_agree hij hij' h

theorem differenceLoop_agree (hij : i ≤ j) (hij' : i' ≤ j') (h : Agree c c' i j) :
    (do
      let r ← differenceLoop c s d comp i j i' j' a n
      let r1 ← copy c r.1 j d r.2.1
      pure (r.2.2 + r1.1, r1.2) : M V (Nat × Nat)) = (do
      let r ← differenceLoop c' s d comp i j i' j' a n
      let r1 ← copy c' r.1 j d r.2.1
      pure (r.2.2 + r1.1, r1.2)) := by
  induction hN : (j - i) + (j' - i') using Nat.strongRecOn generalizing i i' a n with
  | ind N ih =>
    conv => lhs; rw [differenceLoop]
    conv => rhs; rw [differenceLoop]
    by_cases h1 : i ≠ j ∧ i' ≠ j'
    · rw [if_pos h1, if_pos h1, h i (by omega) (by omega), bind_assoc, bind_assoc]
      obtain ⟨h1, h2⟩ := h1
      refine bind_congr fun x => ?_
      split
      · rw [bind_assoc, bind_assoc]
        refine bind_congr fun _ => ?_
        exact ih _ (by omega) (by omega) hij' h.tail rfl
      · exact ih _ (by omega) (by omega) (by omega) h.tail rfl
    · rw [if_neg h1, if_neg h1, pure_bind, pure_bind]
      unfold copy
      rw [copyLoop_agree hij h]

theorem setDifference_agree (hij : i ≤ j) (hij' : i' ≤ j') (h : Agree c c' i j) : setDifference c i j s i' j' d a comp = setDifference c' i j s i' j' d a comp := differenceLoop_agree hij hij' h

end CC.Algo

namespace CC.IAlgo
open CC CC.Iter CC.Algo
variable {V : Type} {r : Src V} {i j : Nat}

theorem agree_slots (hj : j ≤ r.len) : Agree r.ref r.slots i j := fun _ _ h => (slots_lt (by omega)).symm

end CC.IAlgo
