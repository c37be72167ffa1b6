import Verif.Algo.SortSpec2
import Verif.Spec.SetOp
/-!
# Model of `algorithm/c_set_op.c` and proofs about it
-/
namespace CC.Algo
open CC CC.Tac
variable {V : Type} {nf : Prop} {P : HProp V} {c c' d : Slots} {i i' j n : Nat} {xs ys us : List V} {comp : V → V → Bool}

/-- loop of `algo_merge_by`, c_set_op.c:52-63; returns the final `__first1`, `__first2`, `__d_first`, `n` -/
def mergeLoop (c c' d : Slots) (comp : V → V → Bool) (first1 last1 first2 last2 dFirst n : Nat) : M V (Nat × Nat × Nat × Nat) :=
  if first1 ≠ last1 ∧ first2 ≠ last2 then do
    if ← cmp comp (c first1) (c' first2) then do
      asg (d dFirst) (c first1)
      mergeLoop c c' d comp (first1 + 1) last1 first2 last2 (dFirst + 1) (n + 1)
    else do
      asg (d dFirst) (c' first2)
      mergeLoop c c' d comp first1 last1 (first2 + 1) last2 (dFirst + 1) (n + 1)
  else pure (first1, first2, dFirst, n)
partial_fixpoint

/-- `algo_merge_by`, c_set_op.c:31-73; returns the result and `*d_last` -/
def merge (c : Slots) (first1 last1 : Nat) (c' : Slots) (first2 last2 : Nat) (d : Slots) (dFirst : Nat) (comp : V → V → Bool) : M V (Nat × Nat) := do
  let r ← mergeLoop c c' d comp first1 last1 first2 last2 dFirst 0
  let r1 ← copy c r.1 last1 d r.2.2.1
  let r2 ← copy c' r.2.1 last2 d r1.2
  pure (r.2.2.2 + r1.1 + r2.1, r2.2)

/-- loop of `algo_includes_by`, c_set_op.c:93-104; returns the final `__first2` -/
def includesLoop (c c' : Slots) (comp : V → V → Bool) (first1 last1 first2 last2 : Nat) : M V Nat :=
  if first1 ≠ last1 ∧ first2 ≠ last2 then do
    if ← cmp comp (c' first2) (c first1) then pure first2
    else do
      if ← cmp comp (c first1) (c' first2) then includesLoop c c' comp (first1 + 1) last1 first2 last2
      else includesLoop c c' comp (first1 + 1) last1 (first2 + 1) last2
  else pure first2
partial_fixpoint

/-- `algo_includes_by`, c_set_op.c:75-111 -/
def includes (c : Slots) (first1 last1 : Nat) (c' : Slots) (first2 last2 : Nat) (comp : V → V → Bool) : M V Bool :=
  if first2 = last2 then pure true else do
  let r ← includesLoop c c' comp first1 last1 first2 last2
  pure (r == last2)

/-- loop of `algo_set_difference_by`, c_set_op.c:134-145; returns the final `__first1`, `__d_first`, `n` -/
def differenceLoop (c c' d : Slots) (comp : V → V → Bool) (first1 last1 first2 last2 dFirst n : Nat) : M V (Nat × Nat × Nat) :=
  if first1 ≠ last1 ∧ first2 ≠ last2 then do
    if ← cmp comp (c first1) (c' first2) then do
      asg (d dFirst) (c first1)
      differenceLoop c c' d comp (first1 + 1) last1 first2 last2 (dFirst + 1) (n + 1)
    else differenceLoop c c' d comp (first1 + 1) last1 (first2 + 1) last2 dFirst n
  else pure (first1, dFirst, n)
partial_fixpoint

/-- `algo_set_difference_by`, c_set_op.c:113-154; returns the result and `*d_last` -/
def setDifference (c : Slots) (first1 last1 : Nat) (c' : Slots) (first2 last2 : Nat) (d : Slots) (dFirst : Nat) (comp : V → V → Bool) : M V (Nat × Nat) := do
  let r ← differenceLoop c c' d comp first1 last1 first2 last2 dFirst 0
  let r1 ← copy c r.1 last1 d r.2.1
  pure (r.2.2 + r1.1, r1.2)

/-- loop of `algo_set_intersection_by`, c_set_op.c:177-191; returns the final `n` and `__d_first` -/
def intersectionLoop (c c' d : Slots) (comp : V → V → Bool) (first1 last1 first2 last2 dFirst n : Nat) : M V (Nat × Nat) :=
  if first1 ≠ last1 ∧ first2 ≠ last2 then do
    if ← cmp comp (c first1) (c' first2) then intersectionLoop c c' d comp (first1 + 1) last1 first2 last2 dFirst n
    else do
      if ← cmp comp (c' first2) (c first1) then intersectionLoop c c' d comp first1 last1 (first2 + 1) last2 dFirst n
      else do
        asg (d dFirst) (c first1)
        intersectionLoop c c' d comp (first1 + 1) last1 (first2 + 1) last2 (dFirst + 1) (n + 1)
  else pure (n, dFirst)
partial_fixpoint

/-- `algo_set_intersection_by`, c_set_op.c:156-198; returns the result and `*d_last` -/
def setIntersection (c : Slots) (first1 last1 : Nat) (c' : Slots) (first2 last2 : Nat) (d : Slots) (dFirst : Nat) (comp : V → V → Bool) : M V (Nat × Nat) :=
  intersectionLoop c c' d comp first1 last1 first2 last2 dFirst 0

/-- loop of `algo_set_symmetric_difference_by`, c_set_op.c:221-238; returns the final `__first1`, `__first2`, `__d_first`, `n` -/
def symDifferenceLoop (c c' d : Slots) (comp : V → V → Bool) (first1 last1 first2 last2 dFirst n : Nat) : M V (Nat × Nat × Nat × Nat) :=
  if first1 ≠ last1 ∧ first2 ≠ last2 then do
    if ← cmp comp (c first1) (c' first2) then do
      asg (d dFirst) (c first1)
      symDifferenceLoop c c' d comp (first1 + 1) last1 first2 last2 (dFirst + 1) (n + 1)
    else do
      if ← cmp comp (c' first2) (c first1) then do
        asg (d dFirst) (c' first2)
        symDifferenceLoop c c' d comp first1 last1 (first2 + 1) last2 (dFirst + 1) (n + 1)
      else symDifferenceLoop c c' d comp (first1 + 1) last1 (first2 + 1) last2 dFirst n
  else pure (first1, first2, dFirst, n)
partial_fixpoint

/-- `algo_set_symmetric_difference_by`, c_set_op.c:200-248; returns the result and `*d_last` -/
def setSymDifference (c : Slots) (first1 last1 : Nat) (c' : Slots) (first2 last2 : Nat) (d : Slots) (dFirst : Nat) (comp : V → V → Bool) : M V (Nat × Nat) := do
  let r ← symDifferenceLoop c c' d comp first1 last1 first2 last2 dFirst 0
  let r1 ← copy c r.1 last1 d r.2.2.1
  let r2 ← copy c' r.2.1 last2 d r1.2
  pure (r.2.2.2 + r1.1 + r2.1, r2.2)

/-- loop of `algo_set_union_by`, c_set_op.c:271-291; returns the final `__first1`, `__first2`, `__d_first`, `n` -/
def unionLoop (c c' d : Slots) (comp : V → V → Bool) (first1 last1 first2 last2 dFirst n : Nat) : M V (Nat × Nat × Nat × Nat) :=
  if first1 ≠ last1 ∧ first2 ≠ last2 then do
    if ← cmp comp (c first1) (c' first2) then do
      asg (d dFirst) (c first1)
      unionLoop c c' d comp (first1 + 1) last1 first2 last2 (dFirst + 1) (n + 1)
    else do
      if ← cmp comp (c' first2) (c first1) then do
        asg (d dFirst) (c' first2)
        unionLoop c c' d comp first1 last1 (first2 + 1) last2 (dFirst + 1) (n + 1)
      else do
        asg (d dFirst) (c first1)
        unionLoop c c' d comp (first1 + 1) last1 (first2 + 1) last2 (dFirst + 1) (n + 1)
  else pure (first1, first2, dFirst, n)
partial_fixpoint

/-- `algo_set_union_by`, c_set_op.c:250-301; returns the result and `*d_last` -/
def setUnion (c : Slots) (first1 last1 : Nat) (c' : Slots) (first2 last2 : Nat) (d : Slots) (dFirst : Nat) (comp : V → V → Bool) : M V (Nat × Nat) := do
  let r ← unionLoop c c' d comp first1 last1 first2 last2 dFirst 0
  let r1 ← copy c r.1 last1 d r.2.2.1
  let r2 ← copy c' r.2.1 last2 d r1.2
  pure (r.2.2.2 + r1.1 + r2.1, r2.2)

/-! ## proofs -/

/-- what is promised about the output -/
def Out (d : Slots) (j n : Nat) (us zs : List V) (P : HProp V) : Nat × Nat → HProp V :=
  fun r => ⌜r = (n + zs.length, j + zs.length)⌝ ∗ P ∗ seg d j (over us zs)

theorem Out.emit {z u : V} {zs : List V} {r : Nat × Nat} : Out d (j + 1) (n + 1) us zs (P ∗ pts (d j) (.obj (some z))) r ⊢ₛ Out d j n (u :: us) (z :: zs) P r := by
  unfold Out
  xintro hr
  simp only [over, List.length_cons, List.cons_append, seg_cons, List.drop_succ_cons]
  cancel
  rw [hr]; ext <;> simp <;> omega

/-- the end of the functions: copy what is left of both ranges, one of which is empty -/
theorem finish_left (hR' : Rng P c' i' ys) (hl : ys.length ≤ us.length) :
    Triple nf (P ∗ seg d j us) (do
      let r1 ← copy c i i d j
      let r2 ← copy c' i' (i' + ys.length) d r1.2
      pure (n + r1.1 + r2.1, r2.2)) (Out d j n us ys P) := by
  have h0 : (copy c i i d j : M V (Nat × Nat)) = pure (0, j) := by unfold copy; rw [copyLoop, if_neg (by simp)]
  rw [h0, pure_bind]
  refine Triple.bind (copy_spec hR' hl) ?_
  intro r
  xintro hr
  subst hr
  apply Triple.ret
  unfold Out
  cancel

theorem finish_right (hR : Rng P c i xs) (hl : xs.length ≤ us.length) :
    Triple nf (P ∗ seg d j us) (do
      let r1 ← copy c i (i + xs.length) d j
      let r2 ← copy c' i' i' d r1.2
      pure (n + r1.1 + r2.1, r2.2)) (Out d j n us xs P) := by
  refine Triple.bind (copy_spec hR hl) ?_
  intro r
  xintro hr
  subst hr
  have h0 : (copy c' i' i' d (j + xs.length) : M V (Nat × Nat)) = pure (0, j + xs.length) := by unfold copy; rw [copyLoop, if_neg (by simp)]
  rw [h0, pure_bind]
  apply Triple.ret
  unfold Out
  cancel

theorem out_nil : (P ∗ seg d j us) ⊢ₛ Out d j n us [] P (n, j) := by
  unfold Out
  simp only [over, List.nil_append, List.length_nil, List.drop_zero]
  cancel

theorem unionLoop_spec (hR : Rng P c i xs) (hR' : Rng P c' i' ys) (hl : (setL comp true true true xs ys).length ≤ us.length) :
    Triple nf (P ∗ seg d j us) (do
      let r ← unionLoop c c' d comp i (i + xs.length) i' (i' + ys.length) j n
      let r1 ← copy c r.1 (i + xs.length) d r.2.2.1
      let r2 ← copy c' r.2.1 (i' + ys.length) d r1.2
      pure (r.2.2.2 + r1.1 + r2.1, r2.2))
      (Out d j n us (setL comp true true true xs ys) P) := by
  induction xs, ys using setInd (lt := comp) generalizing i i' j us n P with
  | case1 ys =>
    rw [unionLoop, if_neg (by simp), pure_bind]
    rw [setL_nil_left, if_pos rfl] at hl ⊢
    exact finish_left (i := i) hR' hl
  | case2 xs =>
    rw [unionLoop, if_neg (by simp), pure_bind]
    rw [setL_nil_right, if_pos rfl] at hl ⊢
    exact finish_right (i' := i') hR hl
  | case3 x xs y ys h ih =>
    rw [unionLoop, if_pos (by simp)]
    rw [bind_assoc]
    refine cmp_reads hR.head.left hR'.head.left ?_
    rw [if_pos h]
    rw [setL_cons, if_pos h] at hl ⊢
    · rw [if_pos rfl] at hl ⊢
      cases us with
      | nil => simp at hl
      | cons u us =>
        rw [show i + (x :: xs).length = i + 1 + xs.length by simp; omega]
        rw [bind_assoc]
        refine asg_seg hR.head ?_
        refine Triple.post (ih (hR.tail.left) (hR'.left) (by simp at hl; exact hl)) ?_
        intro r
        exact Out.emit

  | case4 x xs y ys h h' ih =>
    rw [unionLoop, if_pos (by simp)]
    rw [bind_assoc]
    refine cmp_reads hR.head.left hR'.head.left ?_
    rw [if_neg h]
    rw [bind_assoc]
    refine cmp_reads hR'.head.left hR.head.left ?_
    rw [if_pos h']
    rw [setL_cons, if_neg h, if_pos h'] at hl ⊢
    · rw [if_pos rfl] at hl ⊢
      cases us with
      | nil => simp at hl
      | cons u us =>
        rw [show i' + (y :: ys).length = i' + 1 + ys.length by simp; omega]
        rw [bind_assoc]
        refine asg_seg hR'.head ?_
        refine Triple.post (ih (hR.left) (hR'.tail.left) (by simp at hl; exact hl)) ?_
        intro r
        exact Out.emit

  | case5 x xs y ys h h' ih =>
    rw [unionLoop, if_pos (by simp)]
    rw [bind_assoc]
    refine cmp_reads hR.head.left hR'.head.left ?_
    rw [if_neg h]
    rw [bind_assoc]
    refine cmp_reads hR'.head.left hR.head.left ?_
    rw [if_neg h']
    rw [setL_cons, if_neg h, if_neg h'] at hl ⊢
    · rw [if_pos rfl] at hl ⊢
      cases us with
      | nil => simp at hl
      | cons u us =>
        rw [show i + (x :: xs).length = i + 1 + xs.length by simp; omega, show i' + (y :: ys).length = i' + 1 + ys.length by simp; omega]
        rw [bind_assoc]
        refine asg_seg hR.head ?_
        refine Triple.post (ih (hR.tail.left) (hR'.tail.left) (by simp at hl; exact hl)) ?_
        intro r
        exact Out.emit


theorem symDifferenceLoop_spec (hR : Rng P c i xs) (hR' : Rng P c' i' ys) (hl : (setL comp true true false xs ys).length ≤ us.length) :
    Triple nf (P ∗ seg d j us) (do
      let r ← symDifferenceLoop c c' d comp i (i + xs.length) i' (i' + ys.length) j n
      let r1 ← copy c r.1 (i + xs.length) d r.2.2.1
      let r2 ← copy c' r.2.1 (i' + ys.length) d r1.2
      pure (r.2.2.2 + r1.1 + r2.1, r2.2))
      (Out d j n us (setL comp true true false xs ys) P) := by
  induction xs, ys using setInd (lt := comp) generalizing i i' j us n P with
  | case1 ys =>
    rw [symDifferenceLoop, if_neg (by simp), pure_bind]
    rw [setL_nil_left, if_pos rfl] at hl ⊢
    exact finish_left (i := i) hR' hl
  | case2 xs =>
    rw [symDifferenceLoop, if_neg (by simp), pure_bind]
    rw [setL_nil_right, if_pos rfl] at hl ⊢
    exact finish_right (i' := i') hR hl
  | case3 x xs y ys h ih =>
    rw [symDifferenceLoop, if_pos (by simp)]
    rw [bind_assoc]
    refine cmp_reads hR.head.left hR'.head.left ?_
    rw [if_pos h]
    rw [setL_cons, if_pos h] at hl ⊢
    · rw [if_pos rfl] at hl ⊢
      cases us with
      | nil => simp at hl
      | cons u us =>
        rw [show i + (x :: xs).length = i + 1 + xs.length by simp; omega]
        rw [bind_assoc]
        refine asg_seg hR.head ?_
        refine Triple.post (ih (hR.tail.left) (hR'.left) (by simp at hl; exact hl)) ?_
        intro r
        exact Out.emit

  | case4 x xs y ys h h' ih =>
    rw [symDifferenceLoop, if_pos (by simp)]
    rw [bind_assoc]
    refine cmp_reads hR.head.left hR'.head.left ?_
    rw [if_neg h]
    rw [bind_assoc]
    refine cmp_reads hR'.head.left hR.head.left ?_
    rw [if_pos h']
    rw [setL_cons, if_neg h, if_pos h'] at hl ⊢
    · rw [if_pos rfl] at hl ⊢
      cases us with
      | nil => simp at hl
      | cons u us =>
        rw [show i' + (y :: ys).length = i' + 1 + ys.length by simp; omega]
        rw [bind_assoc]
        refine asg_seg hR'.head ?_
        refine Triple.post (ih (hR.left) (hR'.tail.left) (by simp at hl; exact hl)) ?_
        intro r
        exact Out.emit

  | case5 x xs y ys h h' ih =>
    rw [symDifferenceLoop, if_pos (by simp)]
    rw [bind_assoc]
    refine cmp_reads hR.head.left hR'.head.left ?_
    rw [if_neg h]
    rw [bind_assoc]
    refine cmp_reads hR'.head.left hR.head.left ?_
    rw [if_neg h']
    rw [setL_cons, if_neg h, if_neg h'] at hl ⊢
    · rw [if_neg (by simp), List.nil_append] at hl ⊢
      rw [show i + (x :: xs).length = i + 1 + xs.length by simp; omega, show i' + (y :: ys).length = i' + 1 + ys.length by simp; omega]
      exact ih (hR.tail) (hR'.tail) hl


theorem intersectionLoop_spec (hR : Rng P c i xs) (hR' : Rng P c' i' ys) (hl : (setL comp false false true xs ys).length ≤ us.length) :
    Triple nf (P ∗ seg d j us) (intersectionLoop c c' d comp i (i + xs.length) i' (i' + ys.length) j n)
      (Out d j n us (setL comp false false true xs ys) P) := by
  induction xs, ys using setInd (lt := comp) generalizing i i' j us n P with
  | case1 ys =>
    rw [intersectionLoop, if_neg (by simp)]
    rw [setL_nil_left, if_neg (by simp)] at hl ⊢
    exact Triple.ret out_nil
  | case2 xs =>
    rw [intersectionLoop, if_neg (by simp)]
    rw [setL_nil_right, if_neg (by simp)] at hl ⊢
    exact Triple.ret out_nil
  | case3 x xs y ys h ih =>
    rw [intersectionLoop, if_pos (by simp)]
    refine cmp_reads hR.head.left hR'.head.left ?_
    rw [if_pos h]
    rw [setL_cons, if_pos h] at hl ⊢
    · rw [if_neg (by simp), List.nil_append] at hl ⊢
      rw [show i + (x :: xs).length = i + 1 + xs.length by simp; omega]
      exact ih (hR.tail) (hR') hl

  | case4 x xs y ys h h' ih =>
    rw [intersectionLoop, if_pos (by simp)]
    refine cmp_reads hR.head.left hR'.head.left ?_
    rw [if_neg h]
    refine cmp_reads hR'.head.left hR.head.left ?_
    rw [if_pos h']
    rw [setL_cons, if_neg h, if_pos h'] at hl ⊢
    · rw [if_neg (by simp), List.nil_append] at hl ⊢
      rw [show i' + (y :: ys).length = i' + 1 + ys.length by simp; omega]
      exact ih (hR) (hR'.tail) hl

  | case5 x xs y ys h h' ih =>
    rw [intersectionLoop, if_pos (by simp)]
    refine cmp_reads hR.head.left hR'.head.left ?_
    rw [if_neg h]
    refine cmp_reads hR'.head.left hR.head.left ?_
    rw [if_neg h']
    rw [setL_cons, if_neg h, if_neg h'] at hl ⊢
    · rw [if_pos rfl] at hl ⊢
      cases us with
      | nil => simp at hl
      | cons u us =>
        rw [show i + (x :: xs).length = i + 1 + xs.length by simp; omega, show i' + (y :: ys).length = i' + 1 + ys.length by simp; omega]
        refine asg_seg hR.head ?_
        refine Triple.post (ih (hR.tail.left) (hR'.tail.left) (by simp at hl; exact hl)) ?_
        intro r
        exact Out.emit


theorem mergeLoop_spec (hR : Rng P c i xs) (hR' : Rng P c' i' ys) (hl : xs.length + ys.length ≤ us.length) :
    Triple nf (P ∗ seg d j us) (do
      let r ← mergeLoop c c' d comp i (i + xs.length) i' (i' + ys.length) j n
      let r1 ← copy c r.1 (i + xs.length) d r.2.2.1
      let r2 ← copy c' r.2.1 (i' + ys.length) d r1.2
      pure (r.2.2.2 + r1.1 + r2.1, r2.2))
      (Out d j n us (mergeL comp ys xs) P) := by
  induction hm : xs.length + ys.length generalizing i i' j us n P xs ys with
  | zero =>
    obtain rfl : xs = [] := List.eq_nil_of_length_eq_zero (by omega)
    rw [mergeLoop, if_neg (by simp), pure_bind, mergeL_nil_right]
    exact finish_left (i := i) hR' (by omega)
  | succ m ih =>
    cases xs with
    | nil =>
      rw [mergeLoop, if_neg (by simp), pure_bind, mergeL_nil_right]
      exact finish_left (i := i) hR' (by simp at hl; omega)
    | cons x xs =>
      cases ys with
      | nil =>
        rw [mergeLoop, if_neg (by simp), pure_bind, mergeL_nil_left]
        exact finish_right (i' := i') hR (by simp at hl ⊢; omega)
      | cons y ys =>
        rw [mergeLoop, if_pos (by simp), bind_assoc]
        refine cmp_reads hR.head.left hR'.head.left ?_
        rw [mergeL_cons]
        simp only [List.length_cons] at hm hl
        cases us with
        | nil => simp at hl
        | cons u us =>
          simp only [List.length_cons] at hl
          by_cases h : comp x y = true
          · rw [if_pos h, if_pos h, bind_assoc]
            refine asg_seg hR.head ?_
            have := @ih (P ∗ pts (d j) (.obj (some x))) (i + 1) i' (j + 1) (n + 1) xs (y :: ys) us hR.tail.left hR'.left (by simp only [List.length_cons]; omega) (by simp only [List.length_cons]; omega)
            rw [show i + 1 + xs.length = i + (x :: xs).length by simp; omega] at this
            refine Triple.post this ?_
            intro r
            exact Out.emit
          · rw [if_neg h, if_neg h, bind_assoc]
            refine asg_seg hR'.head ?_
            have := @ih (P ∗ pts (d j) (.obj (some y))) i (i' + 1) (j + 1) (n + 1) (x :: xs) ys us hR.left hR'.tail.left (by simp only [List.length_cons]; omega) (by simp only [List.length_cons]; omega)
            rw [show i' + 1 + ys.length = i' + (y :: ys).length by simp; omega] at this
            refine Triple.post this ?_
            intro r
            exact Out.emit

theorem includes_nil {xs : List V} : Includes comp xs [] := fun a => by simp [cls]

theorem includesLoop_spec (hsw : StrictWeak comp) (hR : Rng P c i xs) (hR' : Rng P c' i' ys) (hx : Sorted comp xs) (hy : Sorted comp ys) :
    Triple nf P (includesLoop c c' comp i (i + xs.length) i' (i' + ys.length)) (fun r => ⌜r = i' + ys.length ↔ Includes comp xs ys⌝ ∗ P) := by
  induction xs, ys using setInd (lt := comp) generalizing i i' with
  | case1 ys =>
    rw [includesLoop, if_neg (by simp)]
    apply Triple.ret
    cancel
    cases ys with
    | nil => simp [includes_nil]
    | cons y ys =>
      simp only [List.length_cons, Nat.left_eq_add, Nat.add_eq_zero_iff, Nat.one_ne_zero, and_false, false_iff]
      intro h
      have := h y
      rw [cls_cons, if_pos (by simp [equivB, hsw.irrefl])] at this
      simp [cls] at this
  | case2 xs =>
    rw [includesLoop, if_neg (by simp)]
    apply Triple.ret
    cancel
    simp [includes_nil]
  | case3 x xs y ys h ih =>
    rw [includesLoop, if_pos (by simp)]
    refine cmp_reads hR'.head hR.head ?_
    rw [if_neg (by simp [hsw.asymm h])]
    refine cmp_reads hR.head hR'.head ?_
    rw [if_pos h, show i + (x :: xs).length = i + 1 + xs.length by simp; omega]
    refine Triple.post (ih hR.tail hR' (List.pairwise_cons.1 hx).2 hy) ?_
    intro r
    xintro hr
    cancel
    rw [hr]
    constructor
    · intro hi a
      have := hi a
      rw [cls_cons (x := x)]
      split
      · rw [List.length_cons]; omega
      · exact this
    · intro hi a
      have := hi a
      rw [cls_cons (x := x)] at this
      split at this
      · rename_i hax
        rw [cls_nil_of_lt hsw hy hax h]; exact Nat.zero_le _
      · exact this
  | case4 x xs y ys h h' ih =>
    rw [includesLoop, if_pos (by simp)]
    refine cmp_reads hR'.head hR.head ?_
    rw [if_pos h']
    apply Triple.ret
    cancel
    simp only [List.length_cons, Nat.left_eq_add, Nat.add_eq_zero_iff, Nat.one_ne_zero, and_false, false_iff]
    intro hi
    have := hi y
    have hyy : equivB comp y y = true := by simp [equivB, hsw.irrefl]
    rw [cls_nil_of_lt hsw hx hyy h', cls_cons, if_pos hyy] at this
    simp at this
  | case5 x xs y ys h h' ih =>
    rw [includesLoop, if_pos (by simp)]
    refine cmp_reads hR'.head hR.head ?_
    rw [if_neg h']
    refine cmp_reads hR.head hR'.head ?_
    rw [if_neg h, show i + (x :: xs).length = i + 1 + xs.length by simp; omega, show i' + (y :: ys).length = i' + 1 + ys.length by simp; omega]
    refine Triple.post (ih hR.tail hR'.tail (List.pairwise_cons.1 hx).2 (List.pairwise_cons.1 hy).2) ?_
    intro r
    xintro hr
    cancel
    rw [hr]
    rw [Bool.not_eq_true] at h h'
    have hxy : equivB comp x y = true := by simp [equivB, h, h']
    have heq : ∀ a, equivB comp a x = equivB comp a y := by
      intro a; simp only [equivB, hsw.equivB_left hxy, hsw.equivB_right hxy]
    constructor
    · intro hi a
      have := hi a
      rw [cls_cons (x := x), cls_cons (x := y), heq]
      split
      · simp only [List.length_cons]; omega
      · exact this
    · intro hi a
      have := hi a
      rw [cls_cons (x := x), cls_cons (x := y), heq] at this
      split at this
      · simp only [List.length_cons] at this; omega
      · exact this

theorem includes_spec (hsw : StrictWeak comp) (hR : Rng P c i xs) (hR' : Rng P c' i' ys) (hx : Sorted comp xs) (hy : Sorted comp ys) :
    Triple nf P (includes c i (i + xs.length) c' i' (i' + ys.length) comp) (fun r => ⌜r = true ↔ Includes comp xs ys⌝ ∗ P) := by
  unfold includes
  cases ys with
  | nil =>
    rw [if_pos (by simp)]
    apply Triple.ret
    cancel
    simp [includes_nil]
  | cons y ys =>
    rw [if_neg (by simp)]
    refine Triple.bind (includesLoop_spec hsw hR hR' hx hy) ?_
    intro r
    xintro hr
    apply Triple.ret
    cancel
    rw [← hr]
    simp

/-- what the difference loop computes: an element of the first range is dropped as soon as it is not less than the next one of the second -/
def diffL (lt : V → V → Bool) : List V → List V → List V
  | [], _ => []
  | xs, [] => xs
  | x :: xs, y :: ys => if lt x y then x :: diffL lt xs (y :: ys) else diffL lt xs ys

theorem diffL_nil {xs : List V} : diffL comp xs [] = xs := by cases xs <;> rfl

theorem diffL_length {xs ys : List V} : (diffL comp xs ys).length ≤ xs.length := by
  induction xs generalizing ys with
  | nil => simp [diffL]
  | cons x xs ih =>
    cases ys with
    | nil => simp [diffL]
    | cons y ys =>
      rw [diffL]
      split
      · simp only [List.length_cons]; have := @ih (y :: ys); omega
      · simp only [List.length_cons]; have := @ih ys; omega

theorem differenceLoop_spec (hR : Rng P c i xs) (hR' : Rng P c' i' ys) (hl : (diffL comp xs ys).length ≤ us.length) :
    Triple nf (P ∗ seg d j us) (do
      let r ← differenceLoop c c' d comp i (i + xs.length) i' (i' + ys.length) j n
      let r1 ← copy c r.1 (i + xs.length) d r.2.1
      pure (r.2.2 + r1.1, r1.2))
      (Out d j n us (diffL comp xs ys) P) := by
  induction xs generalizing i i' j us n P ys with
  | nil =>
    rw [differenceLoop, if_neg (by simp), pure_bind]
    have h0 : (copy c i (i + ([] : List V).length) d j : M V (Nat × Nat)) = pure (0, j) := by unfold copy; rw [copyLoop, if_neg (by simp)]
    rw [h0, pure_bind]
    exact Triple.ret out_nil
  | cons x xs ih =>
    cases ys with
    | nil =>
      rw [differenceLoop, if_neg (by simp), pure_bind]
      rw [diffL_nil] at hl ⊢
      refine Triple.bind (copy_spec hR hl) ?_
      intro r
      xintro hr
      subst hr
      apply Triple.ret
      unfold Out
      cancel
    | cons y ys =>
      rw [differenceLoop, if_pos (by simp), bind_assoc]
      refine cmp_reads hR.head.left hR'.head.left ?_
      rw [diffL] at hl ⊢
      by_cases h : comp x y = true
      · rw [if_pos h] at hl ⊢
        rw [if_pos h]
        cases us with
        | nil => simp at hl
        | cons u us =>
          rw [show i + (x :: xs).length = i + 1 + xs.length by simp; omega]
          rw [bind_assoc]
          refine asg_seg hR.head ?_
          refine Triple.post (ih hR.tail.left hR'.left (by simp at hl; exact hl)) ?_
          intro r
          exact Out.emit
      · rw [if_neg h] at hl ⊢
        rw [if_neg h]
        rw [show i + (x :: xs).length = i + 1 + xs.length by simp; omega, show i' + (y :: ys).length = i' + 1 + ys.length by simp; omega]
        exact ih hR.tail hR'.tail hl

theorem diffL_eq (hsw : StrictWeak comp) (hx : Sorted comp xs) (hy : Sorted comp ys) (hi : Includes comp xs ys) :
    diffL comp xs ys = setL comp true false false xs ys := by
  induction xs, ys using setInd (lt := comp) with
  | case1 ys => rw [setL_nil_left]; rfl
  | case2 xs => rw [setL_nil_right, diffL_nil]; rfl
  | case3 x xs y ys h ih =>
    rw [setL_cons, if_pos h, diffL, if_pos h, ih (List.pairwise_cons.1 hx).2 hy]
    · rfl
    · intro a
      have := hi a
      rw [cls_cons (x := x)] at this
      split at this
      · rename_i hax
        rw [cls_nil_of_lt hsw hy hax h]; exact Nat.zero_le _
      · exact this
  | case4 x xs y ys h h' ih =>
    exfalso
    have := hi y
    have hyy : equivB comp y y = true := by simp [equivB, hsw.irrefl]
    rw [cls_nil_of_lt hsw hx hyy h', cls_cons, if_pos hyy] at this
    simp at this
  | case5 x xs y ys h h' ih =>
    rw [setL_cons, if_neg h, if_neg h', diffL, if_neg h, ih (List.pairwise_cons.1 hx).2 (List.pairwise_cons.1 hy).2]
    · rfl
    · intro a
      have := hi a
      rw [Bool.not_eq_true] at h h'
      have hxy : equivB comp x y = true := by simp [equivB, h, h']
      have heq : equivB comp a x = equivB comp a y := by
        simp only [equivB, hsw.equivB_left hxy, hsw.equivB_right hxy]
      rw [cls_cons (x := x), cls_cons (x := y), heq] at this
      split at this
      · simp only [List.length_cons] at this; omega
      · exact this

end CC.Algo
