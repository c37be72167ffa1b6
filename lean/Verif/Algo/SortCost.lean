import Verif.Algo.SortSpec2
import Verif.Algo.Cost
/-!
# The cost of `algo_sort_by`

The scans of the partition and of the insertion have no bound: that they end within the range follows from the values.  So the cost is counted on
copies of the functions (suffix `F`) that give up after a number of rounds (`Le`: what a copy does without giving up, the function does, too);
that the copies do not give up is proved like the correctness of the functions themselves in SortSpec2.lean.
-/
namespace CC.Algo
open CC CC.Tac
variable {V : Type} {nf : Prop} {P : HProp V} {c d : Slots} {i j n h : Nat} {vs us : List V} {f g : Nat → V} {comp : V → V → Bool}

/-! ## the copies -/

/-- `upScan` for at most the given number of elements -/
def upScanF (c : Slots) (comp : V → V → Bool) (pivot : V) : Nat → Nat → M V Nat
  | 0, _ => ub
  | k + 1, first => do
    if ← test (fun a => comp a pivot) (c first) then upScanF c comp pivot k (first + 1) else pure first

/-- `downScan` for at most the given number of elements -/
def downScanF (c : Slots) (comp : V → V → Bool) (pivot : V) : Nat → Nat → M V Nat
  | 0, _ => ub
  | k + 1, last => do
    if ← test (fun a => comp pivot a) (c last) then do
      let last ← dec last
      downScanF c comp pivot k last
    else pure last

/-- `hoare` within `lo`, `hi` and for at most the given number of rounds -/
def hoareF (c : Slots) (comp : V → V → Bool) (pivot : V) (lo hi : Nat) : Nat → Nat → Nat → M V Nat
  | 0, _, _ => ub
  | k + 1, first, last => do
    let first ← upScanF c comp pivot (hi - first) first
    let last ← dec last
    let last ← downScanF c comp pivot (last + 1 - lo) last
    if first < last then do
      swp (c first) (c last)
      hoareF c comp pivot lo hi k (first + 1) last
    else pure first

/-- `introsort` -/
def introsortF (c : Slots) (comp : V → V → Bool) : Nat → Nat → Nat → M V Unit
  | 0, first, last => if last - first > threshold then partialSort c first last last comp else pure ()
  | depth + 1, first, last =>
    if last - first > threshold then do
      let pivot ← median (c first) (c (first + (last - first) / 2)) (c (last - 1)) comp
      let part ← hoareF c comp pivot first last (last - first + 1) first last
      introsortF c comp depth part last
      introsortF c comp depth first part
    else pure ()

/-- `ulLoop` for at most the given number of rounds -/
def ulLoopF (c : Slots) (val : M V V) (comp : V → V → Bool) : Nat → Nat → Nat → M V Nat
  | 0, _, _ => ub
  | k + 1, last, next => do
    let v ← val
    let a ← ldV (c next)
    if comp v a then do
      asg (c last) (c next)
      let next' ← dec next
      ulLoopF c val comp k next next'
    else pure last

/-- `unguardedLinear` -/
def unguardedLinearF (c : Slots) (val : M V V) (comp : V → V → Bool) (k last : Nat) : M V Unit := do
  let next ← dec last
  let l ← ulLoopF c val comp k last next
  let v ← val
  wr (c l) v

/-- `linearSort` -/
def linearSortF (c : Slots) (first last : Nat) (comp : V → V → Bool) : M V Unit := do
  let v ← ldV (c last)
  let a ← ldV (c first)
  if comp v a then do
    let _ ← copyBackward c first last c (last + 1)
    wr (c first) v
  else unguardedLinearF c (pure v) comp (last - first) last

/-- `insertionLoop` for the given number of elements -/
def insertionLoopF (c : Slots) (comp : V → V → Bool) (first : Nat) : Nat → Nat → M V Unit
  | 0, _ => pure ()
  | k + 1, it => do
    linearSortF c first it comp
    insertionLoopF c comp first k (it + 1)

/-- `insertionSort` -/
def insertionSortF (c : Slots) (first last : Nat) (comp : V → V → Bool) : M V Unit :=
  if first = last then pure () else insertionLoopF c comp first (last - (first + 1)) (first + 1)

/-- `unguardedInsertion` for the given number of elements -/
def unguardedInsertionF (c : Slots) (comp : V → V → Bool) : Nat → Nat → M V Unit
  | 0, _ => pure ()
  | k + 1, it => do
    unguardedLinearF c (ldV (c it)) comp 2 it
    unguardedInsertionF c comp k (it + 1)

/-- `finalSort` -/
def finalSortF (c : Slots) (first last : Nat) (comp : V → V → Bool) : M V Unit :=
  if last - first > threshold then do
    insertionSortF c first (first + threshold) comp
    unguardedInsertionF c comp (last - (first + threshold)) (first + threshold)
  else insertionSortF c first last comp

/-- `sort` -/
def sortF (c : Slots) (first last : Nat) (comp : V → V → Bool) : M V Unit :=
  if first = last then pure () else do
  introsortF c comp (lg (last - first) * 2) first last
  finalSortF c first last comp

/-! ## the copies do what the functions do -/

theorem upScanF_le {pivot : V} {k first : Nat} : Le (upScanF c comp pivot k first) (upScan c comp pivot first) := by
  induction k generalizing first with
  | zero => exact Le.ub _
  | succ k ih => rw [upScan, upScanF]; exact Le.bind (Le.refl _) fun _ => Le.ite ih (Le.refl _)

theorem downScanF_le {pivot : V} {k last : Nat} : Le (downScanF c comp pivot k last) (downScan c comp pivot last) := by
  induction k generalizing last with
  | zero => exact Le.ub _
  | succ k ih => rw [downScan, downScanF]; exact Le.bind (Le.refl _) fun _ => Le.ite (Le.bind (Le.refl _) fun _ => ih) (Le.refl _)

theorem hoareF_le {pivot : V} {lo hi k first last : Nat} : Le (hoareF c comp pivot lo hi k first last) (hoare c comp pivot first last) := by
  induction k generalizing first last with
  | zero => exact Le.ub _
  | succ k ih =>
    rw [hoare, hoareF]
    exact Le.bind upScanF_le fun _ => Le.bind (Le.refl _) fun _ => Le.bind downScanF_le fun _ => Le.ite (Le.bind (Le.refl _) fun _ => ih) (Le.refl _)

theorem introsortF_le {depth first last : Nat} : Le (introsortF c comp depth first last : M V Unit) (introsort c comp depth first last) := by
  induction depth generalizing first last with
  | zero => exact Le.refl _
  | succ k ih => exact Le.ite (Le.bind (Le.refl _) fun _ => Le.bind hoareF_le fun _ => Le.bind ih fun _ => ih) (Le.refl _)

theorem ulLoopF_le {val : M V V} {k last next : Nat} : Le (ulLoopF c val comp k last next) (ulLoop c val comp last next) := by
  induction k generalizing last next with
  | zero => exact Le.ub _
  | succ k ih =>
    rw [ulLoop, ulLoopF]
    exact Le.bind (Le.refl _) fun _ => Le.bind (Le.refl _) fun _ => Le.ite (Le.bind (Le.refl _) fun _ => Le.bind (Le.refl _) fun _ => ih) (Le.refl _)

theorem unguardedLinearF_le {val : M V V} {k last : Nat} : Le (unguardedLinearF c val comp k last) (unguardedLinear c val comp last) :=
  Le.bind (Le.refl _) fun _ => Le.bind ulLoopF_le fun _ => Le.refl _

theorem linearSortF_le {first last : Nat} : Le (linearSortF c first last comp) (linearSort c first last comp) :=
  Le.bind (Le.refl _) fun _ => Le.bind (Le.refl _) fun _ => Le.ite (Le.refl _) unguardedLinearF_le

theorem insertionLoopF_le {first k it last : Nat} (h : it + k = last) : Le (insertionLoopF c comp first k it) (insertionLoop c comp first it last) := by
  induction k generalizing it with
  | zero => rw [insertionLoop, if_neg (by omega)]; exact Le.refl _
  | succ k ih => rw [insertionLoop, if_pos (by omega)]; exact Le.bind linearSortF_le fun _ => ih (by omega)

theorem insertionSortF_le {first last : Nat} (h : first ≤ last) : Le (insertionSortF c first last comp) (insertionSort c first last comp) := by
  unfold insertionSortF insertionSort
  split
  · exact Le.refl _
  · exact insertionLoopF_le (by omega)

theorem unguardedInsertionF_le {k it last : Nat} (h : it + k = last) : Le (unguardedInsertionF c comp k it) (unguardedInsertion c comp it last) := by
  induction k generalizing it with
  | zero => rw [unguardedInsertion, if_neg (by omega)]; exact Le.refl _
  | succ k ih => rw [unguardedInsertion, if_pos (by omega)]; exact Le.bind unguardedLinearF_le fun _ => ih (by omega)

theorem finalSortF_le {first last : Nat} (h : first ≤ last) : Le (finalSortF c first last comp) (finalSort c first last comp) := by
  unfold finalSortF finalSort
  split
  · exact Le.bind (insertionSortF_le (by omega)) fun _ => unguardedInsertionF_le (by omega)
  · exact insertionSortF_le h

theorem sortF_le {first last : Nat} (h : first ≤ last) : Le (sortF c first last comp) (sort c first last comp) := by
  unfold sortF sort
  split
  · exact Le.refl _
  · exact Le.bind introsortF_le fun _ => finalSortF_le h

/-! ## the copies do not give up -/

theorem ulLoopF_spec (hsw : StrictWeak comp) {a y v : V} {A : List V} {k : Nat} (hk : A.length < k) (hs : Sorted comp (a :: A)) (hv : comp v a = false) :
    Triple nf (seg c i (a :: A ++ [y])) (ulLoopF c (pure v) comp k (i + (a :: A).length) (i + A.length))
      (fun l => ∃ₛ A1, ∃ₛ A2, ∃ₛ z, ⌜a :: A = A1 ++ A2 ∧ l = i + A1.length ∧ (∀ x, x ∈ A1 → comp v x = false) ∧ (∀ x, x ∈ A2 → comp v x = true)⌝ ∗
        seg c i (A1 ++ z :: A2)) := by
  induction hr : A.reverse generalizing A y k with
  | nil =>
    obtain rfl : A = [] := by simpa using hr
    obtain ⟨k, rfl⟩ : ∃ k', k = k' + 1 := ⟨k - 1, by omega⟩
    rw [ulLoopF, pure_bind]
    refine ldV_reads (seg_rng.head) ?_
    rw [if_neg (by simp [hv])]
    apply Triple.ret
    xexists [a], [], y
    cancel
    refine ⟨rfl, rfl, ?_, by simp⟩
    intro x hx; simp at hx; subst hx; exact hv
  | cons b R ih =>
    obtain rfl : A = R.reverse ++ [b] := by rw [← List.reverse_reverse A, hr, List.reverse_cons]
    generalize R.reverse = B at *
    obtain ⟨k, rfl⟩ : ∃ k', k = k' + 1 := ⟨k - 1, by omega⟩
    rw [ulLoopF, pure_bind]
    have hrb : Reads (seg c i (a :: (B ++ [b]) ++ [y])) (c (i + (B ++ [b]).length)) b := by
      have := append_reads (c := c) (i := i) (A := a :: B) (B := [y]) (v := b)
      simpa using this
    refine ldV_reads hrb ?_
    by_cases hlt : comp v b = true
    · rw [if_pos hlt]
      refine Triple.bind (Q := fun _ => seg c i (a :: B ++ [b]) ∗ pts (c (i + (a :: (B ++ [b])).length)) (.obj (some b))) ?_ ?_
      · refine Triple.pre (P' := pts (c (i + (a :: (B ++ [b])).length)) (.obj (some y)) ∗ seg c i (a :: B ++ [b])) ?_ ?_
        · rw [seg_append, seg_one]; cancel
        refine Triple.post (asg_pts (v := b) ?_) ?_
        · apply Reads.right
          have := append_reads (c := c) (i := i) (A := a :: B) (B := []) (v := b)
          simpa using this
        · intro _; cancel
      intro _
      rw [show i + (B ++ [b]).length = (i + B.length) + 1 by simp; omega]
      apply dec_spec
      rw [show i + B.length + 1 = i + (a :: B).length by simp; omega]
      have hsB : Sorted comp (a :: B) := by
        have : Sorted comp ((a :: B) ++ [b]) := hs
        exact (List.pairwise_append.1 this).1
      have hrB : B.reverse = R := by simpa using hr
      call (@ih b B k (by simp at hk; omega) hsB hrB)
      · intro l
        xintro A1 A2 z hh
        obtain ⟨h1, h2, h3, h4⟩ := hh
        xexists A1, A2 ++ [b], z
        rw [show A1 ++ z :: (A2 ++ [b]) = (A1 ++ z :: A2) ++ [b] by simp, seg_append (xs := A1 ++ z :: A2), seg_one]
        have hl : (A1 ++ z :: A2).length = (a :: (B ++ [b])).length := by
          have := congrArg List.length h1
          simp only [List.length_append, List.length_cons, List.length_nil] at this ⊢
          omega
        rw [hl]
        cancel
        refine ⟨?_, h2, h3, ?_⟩
        · rw [← List.append_assoc, ← h1]; rfl
        · intro x hx
          rcases List.mem_append.1 hx with h | h
          · exact h4 x h
          · simp at h; subst h; exact hlt
    · rw [if_neg hlt]
      rw [Bool.not_eq_true] at hlt
      apply Triple.ret
      xexists a :: (B ++ [b]), [], y
      cancel
      refine ⟨by simp, rfl, ?_, by simp⟩
      intro x hx
      have hs' : Sorted comp ((a :: B) ++ [b]) := hs
      have hx' : x ∈ (a :: B) ++ [b] := hx
      rcases List.mem_append.1 hx' with h | h
      · exact hsw.negtrans hlt ((List.pairwise_append.1 hs').2.2 x h b (by simp))
      · simp at h; subst h; exact hlt

theorem linearSortF_spec (hsw : StrictWeak comp) {v : V} {A : List V} (hne : A ≠ []) (hs : Sorted comp A) :
    Triple nf (seg c i (A ++ [v])) (linearSortF c i (i + A.length) comp)
      (fun _ => ∃ₛ ws, ⌜ws.Perm (A ++ [v]) ∧ Sorted comp ws⌝ ∗ seg c i ws) := by
  obtain ⟨a, A, rfl⟩ := List.exists_cons_of_ne_nil hne
  unfold linearSortF
  refine ldV_reads append_reads ?_
  refine ldV_reads seg_rng.head ?_
  by_cases hlt : comp v a = true
  · rw [if_pos hlt]
    unfold copyBackward
    call (copyBackwardLoop_right (nf := nf) (c := c) (i := i) (vs := a :: A) (X := [v]) (n := 0))
    intro r
    xintro hr
    have hov : overBack (a :: A ++ [v]) (a :: A) = a :: (a :: A) := by simp [overBack]
    rw [hov, seg_cons]
    call (wr_pts (nf := nf) (l := c i) (v := a) (w := v))
    intro _
    xexists v :: a :: A
    rw [seg_cons]
    cancel
    refine ⟨(List.perm_append_comm (l₁ := [v]) (l₂ := a :: A)), ?_⟩
    refine List.pairwise_cons.2 ⟨?_, hs⟩
    intro x hx
    rcases List.mem_cons.1 hx with rfl | h
    · exact hsw.asymm hlt
    · exact hsw.negtrans ((List.pairwise_cons.1 hs).1 x h) (hsw.asymm hlt)
  · rw [if_neg hlt]
    rw [Bool.not_eq_true] at hlt
    unfold unguardedLinearF
    rw [show i + (a :: A).length = i + A.length + 1 by simp; omega]
    apply dec_spec
    rw [show i + A.length + 1 = i + (a :: A).length by simp; omega]
    call (ulLoopF_spec (nf := nf) (c := c) (i := i) (a := a) (y := v) (v := v) (A := A) (k := i + (a :: A).length - i) hsw (by simp) hs hlt)
    intro l
    xintro A1 A2 z hh
    obtain ⟨h1, h2, h3, h4⟩ := hh
    subst h2
    rw [pure_bind, seg_append, seg_cons]
    call (wr_pts (nf := nf) (l := c (i + A1.length)) (v := z) (w := v))
    intro _
    xexists A1 ++ v :: A2
    rw [seg_append, seg_cons]
    cancel
    refine ⟨?_, sorted_insert hsw (h1 ▸ hs) h3 h4⟩
    rw [h1]
    refine List.perm_middle.trans ?_
    exact (List.perm_append_comm (l₁ := [v]) (l₂ := A1 ++ A2))

theorem insertionLoopF_spec (hsw : StrictWeak comp) {A B : List V} (hne : A ≠ []) (hs : Sorted comp A) :
    Triple nf (seg c i (A ++ B)) (insertionLoopF c comp i B.length (i + A.length))
      (fun _ => ∃ₛ ws, ⌜ws.Perm (A ++ B) ∧ Sorted comp ws⌝ ∗ seg c i ws) := by
  induction B generalizing A with
  | nil =>
    rw [List.length_nil, insertionLoopF]
    apply Triple.ret
    xexists A
    simp only [List.append_nil]
    cancel
  | cons b B ih =>
    rw [List.length_cons, insertionLoopF, show A ++ b :: B = (A ++ [b]) ++ B by simp, seg_append (xs := A ++ [b])]
    call (linearSortF_spec (nf := nf) (c := c) (i := i) (v := b) hsw hne hs)
    intro _
    xintro ws hws
    have hl := hws.1.length_eq
    have := @ih ws (by intro h; subst h; simp at hl) hws.2
    rw [hl, show i + (A ++ [b]).length = i + A.length + 1 by simp; omega] at this
    refine Triple.pre ?_ (Triple.post this ?_)
    · rw [seg_append, hl]; cancel
    · intro _
      xintro zs hz
      xexists zs
      cancel
      exact ⟨hz.1.trans (List.Perm.append_right _ hws.1), hz.2⟩

theorem insertionSortF_spec (hsw : StrictWeak comp) :
    Triple nf (seg c i vs) (insertionSortF c i (i + vs.length) comp) (fun _ => ∃ₛ ws, ⌜ws.Perm vs ∧ Sorted comp ws⌝ ∗ seg c i ws) := by
  unfold insertionSortF
  cases vs with
  | nil =>
    rw [if_pos (by simp)]
    apply Triple.ret
    xexists []
    cancel
    exact ⟨List.Perm.refl _, List.Pairwise.nil⟩
  | cons v vs =>
    rw [if_neg (by simp)]
    have := insertionLoopF_spec (nf := nf) (c := c) (i := i) (A := [v]) (B := vs) hsw (by simp) (List.pairwise_singleton _ _)
    rw [show i + (v :: vs).length - (i + 1) = vs.length by simp; omega]
    exact this

theorem carryStepF_spec (hsw : StrictWeak comp) {A : List V} {a' a x : V} (hs : Sorted comp (A ++ [a', a])) :
    Triple nf (seg c i (A ++ [a', a] ++ [x])) (unguardedLinearF c (ldV (c (i + (A.length + 2)))) comp 2 (i + (A.length + 2)))
      (fun _ => seg c i (A ++ [a', a] ++ [if comp x a then a else x])) := by
  have r1 : ∀ z, Reads (seg c i (A ++ [a', a] ++ [z])) (c (i + (A.length + 2))) z := by
    intro z
    have := append_reads (c := c) (i := i) (A := A ++ [a', a]) (B := []) (v := z)
    simpa using this
  have r2 : ∀ z, Reads (seg c i (A ++ [a', a] ++ [z])) (c (i + (A.length + 1))) a := by
    intro z
    have := append_reads (c := c) (i := i) (A := A ++ [a']) (B := [z]) (v := a)
    simpa using this
  have r3 : ∀ z, Reads (seg c i (A ++ [a', a] ++ [z])) (c (i + A.length)) a' := by
    intro z
    have := append_reads (c := c) (i := i) (A := A) (B := [a, z]) (v := a')
    simpa using this
  unfold unguardedLinearF
  rw [show i + (A.length + 2) = i + A.length + 1 + 1 by omega] at r1 ⊢
  rw [show i + (A.length + 1) = i + A.length + 1 by omega] at r2
  apply dec_spec
  have hw : ∀ z w, Triple nf (seg c i (A ++ [a', a] ++ [z])) (wr (c (i + A.length + 1 + 1)) w) (fun _ => seg c i (A ++ [a', a] ++ [w])) := by
    intro z w
    rw [seg_append, seg_append (ys := [w]), seg_one, seg_one, show i + (A ++ [a', a]).length = i + A.length + 1 + 1 by simp; omega]
    call (wr_pts (nf := nf) (l := c (i + A.length + 1 + 1)) (v := z) (w := w))
    intro _
    cancel
  have hw2 : ∀ z w, Triple nf (seg c i (A ++ [a', z, w])) (wr (c (i + A.length + 1)) a) (fun _ => seg c i (A ++ [a', a, w])) := by
    intro z w
    simp only [seg_append, seg_cons, seg_nil, sep_emp]
    call (wr_pts (nf := nf) (l := c (i + A.length + 1)) (v := z) (w := a))
    intro _
    cancel
  rw [ulLoopF, bind_assoc]
  refine ldV_reads (r1 x) ?_
  rw [bind_assoc]
  refine ldV_reads (r2 x) ?_
  by_cases hc : comp x a = true
  · rw [if_pos hc, if_pos hc, bind_assoc]
    refine Triple.bind (Q := fun _ => seg c i (A ++ [a', a] ++ [a])) ?_ ?_
    · unfold asg
      exact ldV_reads (r2 x) (hw x a)
    intro _
    rw [bind_assoc]
    apply dec_spec
    rw [ulLoopF, bind_assoc]
    refine ldV_reads (r1 a) ?_
    rw [bind_assoc]
    refine ldV_reads (r3 a) ?_
    have hle : comp a a' = false := by
      have := (List.pairwise_append.1 hs).2.1
      exact (List.pairwise_cons.1 this).1 a (by simp)
    rw [if_neg (by simp [hle]), pure_bind]
    refine ldV_reads (r1 a) ?_
    have := hw2 a a
    simpa using this
  · rw [if_neg hc, if_neg hc, pure_bind]
    refine ldV_reads (r1 x) ?_
    exact hw x x

theorem unguardedInsertionF_spec (hsw : StrictWeak comp) {A : List V} {a' a : V} (hs : Sorted comp (A ++ [a', a])) :
    Triple nf (seg c i (A ++ [a', a] ++ vs)) (unguardedInsertionF c comp vs.length (i + (A.length + 2)))
      (fun _ => seg c i (A ++ [a', a] ++ carry comp a vs)) := by
  induction vs generalizing A a' a with
  | nil =>
    rw [List.length_nil, unguardedInsertionF]
    apply Triple.ret
    simp only [carry]
    cancel
  | cons x xs ih =>
    rw [List.length_cons, unguardedInsertionF, show A ++ [a', a] ++ x :: xs = (A ++ [a', a] ++ [x]) ++ xs by simp, seg_append]
    call (carryStepF_spec (nf := nf) (c := c) (i := i) (A := A) (a' := a') (a := a) (x := x) hsw hs)
    intro _
    generalize hy : (if comp x a = true then a else x) = y
    have hs' : Sorted comp ((A ++ [a']) ++ [a, y]) := by
      have := carry_sorted (vs := [x]) hsw (A := A ++ [a']) (a := a) (by simpa using hs)
      simp only [carry, hy] at this
      simpa using this
    have := @ih (A ++ [a']) a y hs'
    rw [show i + ((A ++ [a']).length + 2) = i + (A.length + 2) + 1 by simp; omega] at this
    refine Triple.pre ?_ (Triple.post this ?_)
    · rw [show A ++ [a'] ++ [a, y] ++ xs = (A ++ [a', a] ++ [y]) ++ xs by simp, seg_append (xs := A ++ [a', a] ++ [y])]
      simp only [List.length_append, List.length_cons, List.length_nil]
      cancel
    · intro _
      simp only [carry, hy]
      rw [show A ++ [a'] ++ [a, y] ++ carry comp y xs = A ++ [a', a] ++ y :: carry comp y xs by simp]
      cancel

theorem finalSortF_small (hsw : StrictWeak comp) (hn : vs.length ≤ threshold) :
    Triple nf (seg c i vs) (finalSortF c i (i + vs.length) comp) (fun _ => ∃ₛ ws, ⌜ws.Perm vs ∧ Sorted comp ws⌝ ∗ seg c i ws) := by
  unfold finalSortF
  rw [if_neg (by omega)]
  exact insertionSortF_spec hsw

theorem finalSortF_large (hsw : StrictWeak comp) {A B : List V} (hA : A.length = threshold) (hB : B ≠ []) :
    Triple nf (seg c i (A ++ B)) (finalSortF c i (i + (A ++ B).length) comp)
      (fun _ => ∃ₛ H, ∃ₛ a, ⌜(H ++ [a]).Perm A ∧ Sorted comp (H ++ [a])⌝ ∗ seg c i (H ++ [a] ++ carry comp a B)) := by
  unfold finalSortF
  have hBl := List.length_pos_iff.2 hB
  rw [if_pos (by simp; omega), seg_append]
  have := insertionSortF_spec (nf := nf) (c := c) (i := i) (vs := A) hsw
  rw [hA] at this
  call this
  intro _
  xintro ws hws
  have hl := hws.1.length_eq
  obtain ⟨H, a', a, rfl⟩ := split_last2 (H := ws) (by rw [hl, hA]; decide)
  have h2 := unguardedInsertionF_spec (nf := nf) (c := c) (i := i) (A := H) (a' := a') (a := a) (vs := B) hsw hws.2
  have hH : H.length + 2 = threshold := by rw [← hA, ← hl]; simp
  rw [hH] at h2
  rw [show i + (A ++ B).length - (i + threshold) = B.length by simp [hA]; omega]
  refine Triple.pre ?_ (Triple.post h2 ?_)
  · rw [seg_append (xs := H ++ [a', a]), hl]; cancel
  · intro _
    xexists H ++ [a'], a
    rw [show H ++ [a'] ++ [a] = H ++ [a', a] by simp]
    cancel

theorem upScanF_spec {pivot : V} {p u k : Nat} (hk : u - p < k) (hpu : p ≤ u) (hu : u < n) (hg : comp (f u) pivot = false) :
    Triple nf (seg c i (tab n f)) (upScanF c comp pivot k (i + p))
      (fun r => ∃ₛ k, ⌜r = i + k ∧ p ≤ k ∧ k ≤ u ∧ comp (f k) pivot = false⌝ ∗ seg c i (tab n f)) := by
  induction hm : u - p generalizing p k with
  | zero =>
    obtain rfl : p = u := by omega
    obtain ⟨k, rfl⟩ : ∃ k', k = k' + 1 := ⟨k - 1, by omega⟩
    rw [upScanF]
    refine test_reads (tab_reads hu) ?_
    rw [if_neg (by simp [hg])]
    apply Triple.ret
    xexists p
    cancel
  | succ m ih =>
    obtain ⟨k, rfl⟩ : ∃ k', k = k' + 1 := ⟨k - 1, by omega⟩
    rw [upScanF]
    refine test_reads (tab_reads (k := p) (by omega)) ?_
    by_cases hc : comp (f p) pivot = true
    · rw [if_pos hc]
      refine Triple.post (ih (p := p + 1) (by omega) (by omega) (by omega)) ?_
      intro r
      xintro k hk
      xexists k
      cancel
      exact ⟨hk.1, by omega, hk.2.2⟩
    · rw [if_neg hc]
      apply Triple.ret
      xexists p
      cancel
      exact ⟨rfl, Nat.le_refl _, hpu, by simpa using hc⟩

theorem downScanF_spec {pivot : V} {q w k : Nat} (hk : q - w < k) (hwq : w ≤ q) (hq : q < n) (hg : comp pivot (f w) = false) :
    Triple nf (seg c i (tab n f)) (downScanF c comp pivot k (i + q))
      (fun r => ∃ₛ k, ⌜r = i + k ∧ w ≤ k ∧ k ≤ q ∧ comp pivot (f k) = false⌝ ∗ seg c i (tab n f)) := by
  induction hm : q - w generalizing q k with
  | zero =>
    obtain rfl : q = w := by omega
    obtain ⟨k, rfl⟩ : ∃ k', k = k' + 1 := ⟨k - 1, by omega⟩
    rw [downScanF]
    refine test_reads (tab_reads hq) ?_
    rw [if_neg (by simp [hg])]
    apply Triple.ret
    xexists q
    cancel
  | succ m ih =>
    obtain ⟨k, rfl⟩ : ∃ k', k = k' + 1 := ⟨k - 1, by omega⟩
    rw [downScanF]
    refine test_reads (tab_reads hq) ?_
    by_cases hc : comp pivot (f q) = true
    · rw [if_pos hc]
      obtain ⟨q', rfl⟩ : ∃ q', q = q' + 1 := ⟨q - 1, by omega⟩
      rw [show i + (q' + 1) = i + q' + 1 by omega]
      apply dec_spec
      refine Triple.post (ih (q := q') (by omega) (by omega) (by omega) (by omega)) ?_
      intro r
      xintro k hk
      xexists k
      cancel
      exact ⟨hk.1, hk.2.1, by omega, hk.2.2.2⟩
    · rw [if_neg hc]
      apply Triple.ret
      xexists q
      cancel
      exact ⟨rfl, hwq, Nat.le_refl _, by simpa using hc⟩

theorem hoareF_spec {pivot : V} {p q u w r : Nat} (hr : q - p < r) (hpu : p ≤ u) (hu : u < n) (hgu : comp (f u) pivot = false) (hwq : w < q) (hq : q ≤ n) (hgw : comp pivot (f w) = false) :
    Triple nf (seg c i (tab n f)) (hoareF c comp pivot i (i + n) r (i + p) (i + q))
      (fun r => ∃ₛ g, ∃ₛ k, ⌜r = i + k ∧ k < n ∧ (tab n g).Perm (tab n f)⌝ ∗ seg c i (tab n g)) := by
  induction q using Nat.strongRecOn generalizing p u w r f with
  | _ q ih =>
    obtain ⟨r, rfl⟩ : ∃ r', r = r' + 1 := ⟨r - 1, by omega⟩
    rw [hoareF]
    refine Triple.bind (upScanF_spec (by omega) hpu hu hgu) ?_
    intro r
    xintro k hk
    obtain ⟨rfl, hk1, hk2, hk3⟩ := hk
    obtain ⟨q', rfl⟩ : ∃ q', q = q' + 1 := ⟨q - 1, by omega⟩
    rw [show i + (q' + 1) = i + q' + 1 by omega]
    apply dec_spec
    refine Triple.bind (downScanF_spec (w := w) (by omega) (by omega) (by omega) hgw) ?_
    intro r
    xintro l hl
    obtain ⟨rfl, hl1, hl2, hl3⟩ := hl
    by_cases hlt : i + k < i + l
    · rw [if_pos hlt]
      refine Triple.bind (swp_tab (by omega) (by omega)) ?_
      intro _
      rw [show i + k + 1 = i + (k + 1) by omega]
      refine Triple.post (ih l (by omega) (p := k + 1) (u := l) (w := k) (by omega) (by omega) (by omega) (by rw [swapf_right]; exact hk3) (by omega) (by omega)
        (by rw [swapf_left]; exact hl3)) ?_
      intro r
      xintro g m hg
      xexists g, m
      cancel
      exact ⟨hg.1, hg.2.1, hg.2.2.trans (tab_swapf_perm (by omega) (by omega))⟩
    · rw [if_neg hlt]
      apply Triple.ret
      xexists f, k
      cancel
      exact ⟨rfl, by omega, List.Perm.refl _⟩

theorem introsortF_spec (hsw : StrictWeak comp) (depth : Nat) :
    Triple nf (seg c i vs) (introsortF c comp depth i (i + vs.length)) (fun _ => ∃ₛ ws, ⌜ws.Perm vs⌝ ∗ seg c i ws) := by
  induction depth generalizing i vs with
  | zero =>
    rw [introsortF]
    by_cases hn : i + vs.length - i > threshold
    · rw [if_pos hn]
      have := partialSort_spec (nf := nf) (c := c) (i := i) (A := vs) (B := []) hsw
      simp only [List.append_nil, List.length_nil, Nat.add_zero] at this
      refine Triple.post this ?_
      intro _
      xintro A' B' h
      xexists A' ++ B'
      cancel
      exact h.1
    · rw [if_neg hn]
      apply Triple.ret
      xexists vs
      cancel
  | succ depth ih =>
    rw [introsortF]
    by_cases hn : i + vs.length - i > threshold
    · rw [if_pos hn]
      have h512 : (512 : Nat) < vs.length := by have : threshold = 512 := rfl; omega
      obtain ⟨f, hf⟩ := exists_tab (vs := vs) (by intro h; subst h; simp at h512)
      generalize hnn : vs.length = n at *
      subst hf
      refine Triple.bind (median_spec (tab_reads (k := 0) (by omega)) (tab_reads (k := (i + n - i) / 2) (by omega))
        (by have := tab_reads (V := V) (c := c) (i := i) (n := n) (f := f) (k := n - 1) (by omega); rwa [show i + (n - 1) = i + n - 1 by omega] at this)) ?_
      intro pivot
      xintro hp
      obtain ⟨m, hm, rfl⟩ : ∃ m, m < n ∧ pivot = f m := by
        rcases hp with h | h | h
        · exact ⟨_, by omega, h⟩
        · exact ⟨_, by omega, h⟩
        · exact ⟨_, by omega, h⟩
      refine Triple.bind (hoareF_spec (p := 0) (q := n) (u := m) (w := m) (r := i + n - i + 1) (by omega) (by omega) hm (hsw.irrefl _) (by omega) (Nat.le_refl _) (hsw.irrefl _)) ?_
      intro r
      xintro g k hk
      obtain ⟨rfl, hk, hg⟩ := hk
      have hl := hg.length_eq
      obtain ⟨A, B, hAB, hA⟩ : ∃ A B, tab n g = A ++ B ∧ A.length = k := ⟨(tab n g).take k, (tab n g).drop k, by simp, by simp; omega⟩
      have hBl : k + B.length = n := by rw [← hA, ← List.length_append, ← hAB]; simp
      rw [hAB, seg_append, hA]
      have i1 := @ih (i + k) B
      rw [show i + k + B.length = i + n by omega] at i1
      call i1
      intro _
      xintro B' hB'
      have i2 := @ih i A
      rw [hA] at i2
      call i2
      intro _
      xintro A' hA'
      xexists A' ++ B'
      rw [seg_append, hA'.length_eq, hA]
      cancel
      refine (List.Perm.append hA' hB').trans ?_
      rw [← hAB]
      exact hg
    · rw [if_neg hn]
      apply Triple.ret
      xexists vs
      cancel

theorem introsortF_small {depth : Nat} {first last : Nat} (h : last - first ≤ threshold) : introsortF (V := V) c comp depth first last = pure () := by
  cases depth <;> rw [introsortF, if_neg (by omega)]

theorem sortF_small (hsw : StrictWeak comp) (hn : vs.length ≤ 512) :
    Triple nf (seg c i vs) (sortF c i (i + vs.length) comp) (fun _ => ∃ₛ ws, ⌜ws.Perm vs ∧ Sorted comp ws⌝ ∗ seg c i ws) := by
  unfold sortF
  by_cases h0 : vs = []
  · subst h0
    rw [if_pos (by simp)]
    apply Triple.ret
    xexists []
    cancel
    exact ⟨List.Perm.refl _, List.Pairwise.nil⟩
  have := List.length_pos_iff.2 h0
  rw [if_neg (by omega), introsortF_small (by show _ ≤ 512; omega), pure_bind]
  exact finalSortF_small hsw hn

theorem sortF_any (hsw : StrictWeak comp) :
    Triple nf (seg c i vs) (sortF c i (i + vs.length) comp) (fun _ => ∃ₛ ws, ⌜ws.length = vs.length ∧ Sorted comp ws ∧ (∀ x, x ∈ ws → x ∈ vs)⌝ ∗ seg c i ws) := by
  by_cases hn : vs.length ≤ 512
  · refine Triple.post (sortF_small hsw hn) ?_
    intro _
    xintro ws hws
    xexists ws
    cancel
    exact ⟨hws.1.length_eq, hws.2, fun x hx => hws.1.mem_iff.1 hx⟩
  unfold sortF
  rw [if_neg (by omega)]
  refine Triple.bind (introsortF_spec hsw _) ?_
  intro _
  xintro zs hz
  have hl := hz.length_eq
  obtain ⟨A, B, hAB, hA⟩ : ∃ A B, zs = A ++ B ∧ A.length = threshold := ⟨zs.take 512, zs.drop 512, by simp, by simp [threshold]; omega⟩
  subst hAB
  have hAB := List.length_append (as := A) (bs := B)
  have ht : threshold = 512 := rfl
  rw [← hl]
  refine Triple.post (finalSortF_large hsw hA (by intro h; subst h; rw [List.append_nil] at hl; omega)) ?_
  intro _
  xintro H a h
  xexists H ++ [a] ++ carry comp a B
  cancel
  refine ⟨?_, carry_sorted hsw h.2, ?_⟩
  · have := h.1.length_eq
    rw [List.length_append, this, carry_length, hl, ← hl, hAB]
  · intro x hx
    refine hz.mem_iff.1 ?_
    rcases List.mem_append.1 hx with h1 | h1
    · exact List.mem_append_left _ (h.1.mem_iff.1 h1)
    · rcases carry_mem h1 with h2 | h2
      · subst h2
        exact List.mem_append_left _ (h.1.mem_iff.1 (by simp))
      · exact List.mem_append_right _ h2


/-! ## the cost of the copies -/

theorem upScanF_pays {pivot : V} {k first b : Nat} (hb : k ≤ b) :
    Pays (upScanF c comp pivot k first) b (fun r b' => first ≤ r ∧ r < first + k ∧ b ≤ b' + (r - first + 1)) := by
  induction k generalizing first b with
  | zero => exact Pays.ub
  | succ k ih =>
    rw [upScanF]
    refine Pays.step (cost_test _ _) (by omega) fun a => ?_
    cases a with
    | true =>
      rw [if_pos rfl]
      exact Pays.post (ih (by omega)) fun r b' hr => by omega
    | false =>
      rw [if_neg (by simp)]
      exact Pays.ret (by omega)

theorem downScanF_pays {pivot : V} {k last b : Nat} (hb : k ≤ b) :
    Pays (downScanF c comp pivot k last) b (fun r b' => r ≤ last ∧ last < r + k ∧ b ≤ b' + (last - r + 1)) := by
  induction k generalizing last b with
  | zero => exact Pays.ub
  | succ k ih =>
    rw [downScanF]
    refine Pays.step (cost_test _ _) (by omega) fun a => ?_
    cases a with
    | true =>
      rw [if_pos rfl]
      unfold dec
      by_cases h0 : last = 0
      · rw [if_pos h0]
        exact Pays.bind (R := fun _ _ => False) Pays.ub fun _ _ h => h.elim
      · rw [if_neg h0, pure_bind]
        exact Pays.post (ih (by omega)) fun r b' hr => by omega
    | false =>
      rw [if_neg (by simp)]
      exact Pays.ret (by omega)

theorem hoareF_pays {pivot : V} {lo hi k first last b : Nat} (h1 : lo ≤ first) (h2 : first ≤ hi) (h3 : last ≤ hi) (hb : 4 * (last - first) + 2 * (hi - lo) ≤ b) :
    Pays (hoareF c comp pivot lo hi k first last) b (fun r b' => lo ≤ r ∧ r ≤ hi ∧ b ≤ b' + (4 * (last - first) + 2 * (hi - lo))) := by
  induction k generalizing first last b with
  | zero => exact Pays.ub
  | succ k ih =>
    rw [hoareF]
    refine Pays.bind (upScanF_pays (by omega)) fun f b1 ⟨a1, a2, a3⟩ => ?_
    unfold dec
    by_cases h0 : last = 0
    · rw [if_pos h0]
      exact Pays.bind (R := fun _ _ => False) Pays.ub fun _ _ h => h.elim
    · rw [if_neg h0, pure_bind]
      refine Pays.bind (downScanF_pays (by omega)) fun l b2 ⟨a4, a5, a6⟩ => ?_
      by_cases h4 : f < l
      · rw [if_pos h4]
        refine Pays.step (cost_swp _ _) (by omega) fun _ => ?_
        exact Pays.post (ih (by omega) (by omega) (by omega) (by omega)) fun r b' hr => by omega
      · rw [if_neg h4]
        exact Pays.ret (by omega)

theorem median_cost {x y z : Loc} : Cost (median x y z comp) 7 := by
  unfold median
  cost

theorem introsortF_cost {depth first last k : Nat} (h : first ≤ last) (hk : last - first < 2 ^ (k + 1)) :
    Cost (introsortF c comp depth first last) ((last - first) * (7 * depth + 14 * k + 17)) := by
  induction depth generalizing first last with
  | zero =>
    rw [introsortF]
    split
    · simpa using partialSort_cost (c := c) (comp := comp) h (Nat.le_refl _) hk
    · exact (Cost.pure _).mono (by omega)
  | succ depth ih =>
    rw [introsortF]
    have e : (last - first) * (7 * (depth + 1) + 14 * k + 17) = (last - first) * (7 * depth + 14 * k + 17) + 7 * (last - first) := by
      rw [show 7 * (depth + 1) + 14 * k + 17 = (7 * depth + 14 * k + 17) + 7 by omega, Nat.mul_add]; omega
    split
    · rename_i hn
      have ht : threshold = 512 := rfl
      refine Pays.cost (Q := fun _ _ => True) ?_
      refine Pays.step median_cost (by omega) fun pivot => ?_
      refine Pays.bind (hoareF_pays (Nat.le_refl _) h (Nat.le_refl _) (by omega)) fun r b ⟨h1, h2, h3⟩ => ?_
      have h4 := ih h2 (by omega)
      have h5 := ih h1 (by omega)
      have h6 : (last - r) * (7 * depth + 14 * k + 17) + (r - first) * (7 * depth + 14 * k + 17) = (last - first) * (7 * depth + 14 * k + 17) := by
        rw [← Nat.add_mul]; congr 1; omega
      refine Pays.step h4 (by omega) fun _ => ?_
      exact Pays.of h5 (by omega) fun _ => trivial
    · exact (Cost.pure _).mono (by omega)

theorem ulLoopF_cost {val : M V V} {w k last next : Nat} (hv : Cost val w) : Cost (ulLoopF c val comp k last next) ((w + 4) * k) := by
  induction k generalizing last next with
  | zero => exact Cost.ub.mono (by omega)
  | succ k ih =>
    rw [ulLoopF]
    apply Cost.mono
    · exact Cost.bind hv fun _ => Cost.bind (Cost.ldV _) fun _ => Cost.ite (Cost.bind (cost_asg _ _) fun _ => Cost.bind (cost_dec _) fun _ => ih) (Cost.pure _)
    · rw [Nat.mul_succ]; omega

theorem unguardedLinearF_cost {val : M V V} {w k last : Nat} (hv : Cost val w) : Cost (unguardedLinearF c val comp k last) ((w + 4) * k + w + 2) := by
  unfold unguardedLinearF
  exact (Cost.bind (cost_dec _) fun _ => Cost.bind (ulLoopF_cost hv) fun _ => Cost.bind hv fun _ => cost_wr _ _).mono (by omega)

theorem linearSortF_cost {first last : Nat} (h : first ≤ last) : Cost (linearSortF c first last comp) (4 * (last - first) + 4) := by
  unfold linearSortF
  apply Cost.mono
  · exact Cost.bind (Cost.ldV _) fun _ => Cost.bind (Cost.ldV _) fun _ => Cost.ite
      (Cost.bind (copyBackwardLoop_cost (n := last - first) (by omega)) fun _ => cost_wr _ _) (unguardedLinearF_cost (w := 0) (Cost.pure _))
  · omega

theorem insertionLoopF_cost {first k it w : Nat} (h : first ≤ it) (hw : it + k - first ≤ w) : Cost (insertionLoopF c comp first k it) (4 * w * k) := by
  induction k generalizing it with
  | zero => exact (Cost.pure _).mono (by omega)
  | succ k ih =>
    rw [insertionLoopF]
    apply Cost.mono
    · exact Cost.bind (linearSortF_cost h) fun _ => ih (by omega) (by omega)
    · rw [Nat.mul_succ]; omega

theorem insertionSortF_cost {first last : Nat} (h : first ≤ last) : Cost (insertionSortF c first last comp) (4 * (last - first) * (last - first)) := by
  unfold insertionSortF
  split
  · exact (Cost.pure _).mono (by omega)
  · refine (insertionLoopF_cost (w := last - first) (by omega) (by omega)).mono ?_
    exact Nat.mul_le_mul_left _ (by omega)

theorem unguardedInsertionF_cost {k it : Nat} : Cost (unguardedInsertionF c comp k it) (13 * k) := by
  induction k generalizing it with
  | zero => exact (Cost.pure _).mono (by omega)
  | succ k ih =>
    rw [unguardedInsertionF]
    exact (Cost.bind (unguardedLinearF_cost (w := 1) (Cost.ldV _)) fun _ => ih).mono (by omega)

theorem finalSortF_cost {first last : Nat} (h : first ≤ last) : Cost (finalSortF c first last comp) (2048 * (last - first)) := by
  unfold finalSortF
  have ht : threshold = 512 := rfl
  split
  · apply Cost.mono
    · exact Cost.bind (insertionSortF_cost (by omega)) fun _ => unguardedInsertionF_cost
    · rw [Nat.add_sub_cancel_left, ht]; omega
  · refine (insertionSortF_cost h).mono ?_
    exact Nat.mul_le_mul_right _ (by omega)

theorem lg_le {n k : Nat} (h : n < 2 ^ (k + 1)) : lg n ≤ k := by
  induction k generalizing n with
  | zero => rw [lg, if_neg (by simp at h; omega)]; exact Nat.le_refl _
  | succ k ih =>
    rw [lg]
    split
    · have := ih (n := n / 2) (by rw [Nat.pow_succ] at h; omega)
      omega
    · omega

theorem sortF_cost {first last k : Nat} (h : first ≤ last) (hk : last - first < 2 ^ (k + 1)) :
    Cost (sortF c first last comp) ((last - first) * (28 * k + 2065)) := by
  unfold sortF
  split
  · exact (Cost.pure _).mono (by omega)
  · apply Cost.mono
    · exact Cost.bind (introsortF_cost h hk) fun _ => finalSortF_cost h
    · have := lg_le hk
      rw [Nat.mul_comm 2048, ← Nat.mul_add]
      exact Nat.mul_le_mul_left _ (by omega)

/-- `algo_sort_by` on any range: terminates in time proportional to `n log n` -/
theorem sort_any_cost (hsw : StrictWeak comp) {k : Nat} (hk : vs.length < 2 ^ (k + 1)) :
    TripleC nf (seg c i vs) (sort c i (i + vs.length) comp)
      (fun _ => ∃ₛ ws, ⌜ws.length = vs.length ∧ Sorted comp ws ∧ (∀ x, x ∈ ws → x ∈ vs)⌝ ∗ seg c i ws) (vs.length * (28 * k + 2065)) := by
  have := sortF_cost (c := c) (comp := comp) (first := i) (last := i + vs.length) (k := k) (by omega) (by omega)
  rw [Nat.add_sub_cancel_left] at this
  exact TripleC.intro (sortF_any hsw) this (sortF_le (by omega))

theorem sort_small_cost (hsw : StrictWeak comp) (hn : vs.length ≤ 512) :
    TripleC nf (seg c i vs) (sort c i (i + vs.length) comp)
      (fun _ => ∃ₛ ws, ⌜ws.Perm vs ∧ Sorted comp ws⌝ ∗ seg c i ws) (4 * vs.length * vs.length) := by
  refine TripleC.intro (sortF_small hsw hn) ?_ (sortF_le (by omega))
  have := insertionSortF_cost (c := c) (comp := comp) (first := i) (last := i + vs.length) (by omega)
  rw [Nat.add_sub_cancel_left] at this
  have ht : threshold = 512 := rfl
  unfold sortF
  split
  · exact (Cost.pure _).mono (by omega)
  · rw [introsortF_small (by omega), pure_bind]
    unfold finalSortF
    rw [if_neg (by omega)]
    exact this

end CC.Algo
