import Verif.Algo.Alias
import Verif.Algo.SetOp
import Verif.Algo.Partition
/-!
# Copying algorithms whose destination begins at or before their source, in the same container

The range `X ++ vs` lies at position `i`; the source `vs` begins `X.length` positions behind the destination.
-/
namespace CC.Algo
open CC CC.Tac
variable {V β : Type} {nf : Prop} {P : HProp V} {c c' : Slots} {i i' n : Nat} {X vs ys : List V} {Q : β → HProp V}

/-- the destination lost its first position, the source its first element -/
def shift (X : List V) (v : V) : List V := (X ++ [v]).tail

theorem shift_length {v : V} : (shift X v).length = X.length := by simp [shift]

theorem over_shift {v y : V} {zs : List V} : over (X ++ v :: vs) (y :: zs) = y :: over (shift X v ++ vs) zs := by
  cases X <;> simp [over, shift]

theorem over_skip {v : V} {zs : List V} : over (X ++ v :: vs) zs = over ((X ++ [v]) ++ vs) zs := by simp

theorem seg_shift {v : V} : ∃ x, seg c i (X ++ v :: vs) = (pts (c i) (.obj (some x)) ∗ seg c (i + 1) (shift X v ++ vs)) := by
  cases X with
  | nil => exact ⟨v, rfl⟩
  | cons x X => exact ⟨x, by simp [shift, seg_cons]⟩

theorem src_head {v : V} : Reads (seg c i (X ++ v :: vs) ∗ P) (c (i + X.length)) v := by
  have := (seg_rng (c := c) (i := i) (vs := X ++ v :: vs)) X.length (by simp)
  simp only [List.getElem_append_right (Nat.le_refl _), Nat.sub_self, List.getElem_cons_zero] at this
  exact Reads.left this

/-- writing `y` to the first position of the destination -/
theorem wr_front {v y : V} {K : Unit → M V β} (ht : Triple nf (pts (c i) (.obj (some y)) ∗ seg c (i + 1) (shift X v ++ vs) ∗ P) (K ()) Q) :
    Triple nf (seg c i (X ++ v :: vs) ∗ P) (wr (c i) y >>= K) Q := by
  obtain ⟨x, hx⟩ := seg_shift (c := c) (i := i) (X := X) (vs := vs) (v := v)
  rw [hx, sep_assoc]
  call (wr_pts (l := c i) (v := x) (w := y))
  intro _
  exact ht

theorem asg_front {v y : V} {src : Loc} {K : Unit → M V β} (hs : Reads (seg c i (X ++ v :: vs) ∗ P) src y)
    (ht : Triple nf (pts (c i) (.obj (some y)) ∗ seg c (i + 1) (shift X v ++ vs) ∗ P) (K ()) Q) :
    Triple nf (seg c i (X ++ v :: vs) ∗ P) (asg (c i) src >>= K) Q := by
  unfold asg
  rw [bind_assoc]
  exact ldV_reads hs (wr_front ht)

/-- the condition is evaluated by reading the element and the rest `P` of the memory -/
def Decides (nf : Prop) (P : HProp V) (c : Slots) (cond : Nat → M V Bool) (q : V → Bool) : Prop :=
  ∀ (G : HProp V) (j : Nat) (v : V), Reads (G ∗ P) (c j) v → Triple nf (G ∗ P) (cond j) (fun b => ⌜b = q v⌝ ∗ G ∗ P)

theorem decides_test {pred : V → Bool} : Decides nf P c (fun i => test pred (c i)) pred := by
  intro G j v h
  dsimp only
  rw [← bind_pure (test _ _)]
  refine test_reads h ?_
  apply Triple.ret
  cancel

theorem decides_cmp {eq : V → V → Bool} {value : Loc} {w : V} (hw : Reads P value w) : Decides nf P c (fun i => cmp eq (c i) value) (fun v => eq v w) := by
  intro G j v h
  dsimp only
  rw [← bind_pure (cmp _ _ _)]
  refine cmp_reads h hw.right ?_
  apply Triple.ret
  cancel

theorem Decides.not {cond : Nat → M V Bool} {q : V → Bool} (h : Decides nf P c cond q) : Decides nf P c (fun i => do pure (!(← cond i))) (fun v => !q v) := by
  intro G j v hv
  refine Triple.bind (h G j v hv) ?_
  intro b
  xintro hb
  subst hb
  apply Triple.ret
  cancel

/-- what the loops leave behind -/
def Left (P : HProp V) (c : Slots) (i n : Nat) (us zs : List V) (r : Nat × Nat) : HProp V := ⌜r = (n + zs.length, i + zs.length)⌝ ∗ seg c i (over us zs) ∗ P

theorem left_nil {us : List V} : (seg c i us ∗ P) ⊢ₛ Left P c i n us [] (n, i) := by
  unfold Left
  simp only [over, List.nil_append, List.length_nil, List.drop_zero, Nat.add_zero]
  cancel

theorem left_cons {v y : V} {zs : List V} {r : Nat × Nat} : (pts (c i) (.obj (some y)) ∗ Left P c (i + 1) (n + 1) (shift X v ++ vs) zs r) ⊢ₛ Left P c i n (X ++ v :: vs) (y :: zs) r := by
  unfold Left
  rw [over_shift, seg_cons]
  simp only [List.length_cons]
  rw [show n + 1 + zs.length = n + (zs.length + 1) by omega, show i + 1 + zs.length = i + (zs.length + 1) by omega]
  cancel

/-- the step that writes -/
theorem go_cons {v y : V} {zs : List V} {m : M V (Nat × Nat)} (h : Triple nf (seg c (i + 1) (shift X v ++ vs) ∗ P) m (Left P c (i + 1) (n + 1) (shift X v ++ vs) zs)) :
    Triple nf (pts (c i) (.obj (some y)) ∗ seg c (i + 1) (shift X v ++ vs) ∗ P) m (Left P c i n (X ++ v :: vs) (y :: zs)) := by
  rw [← bind_pure m]
  call h
  intro r
  apply Triple.ret
  refine ent_trans ?_ left_cons
  cancel

theorem copyIfLoop_left {cond : Nat → M V Bool} {q : V → Bool} (hq : Decides nf P c cond q) :
    Triple nf (seg c i (X ++ vs) ∗ P) (copyIfLoop cond c c (i + X.length) (i + X.length + vs.length) i n) (Left P c i n (X ++ vs) (vs.filter q)) := by
  induction vs generalizing i X n with
  | nil =>
    rw [copyIfLoop, if_neg (by simp)]
    exact Triple.ret left_nil
  | cons v vs ih =>
    rw [copyIfLoop, if_pos (by simp)]
    refine Triple.bind (hq _ _ _ src_head) ?_
    intro b
    xintro hb
    subst hb
    by_cases h : q v = true
    · rw [if_pos h, List.filter_cons_of_pos h]
      refine asg_front src_head ?_
      refine go_cons ?_
      have := ih (i := i + 1) (X := shift X v) (n := n + 1)
      rw [shift_length] at this
      rw [show i + X.length + 1 = i + 1 + X.length by omega, show i + X.length + (v :: vs).length = i + 1 + X.length + vs.length by simp; omega]
      exact this
    · rw [if_neg h, List.filter_cons_of_neg h]
      have := ih (i := i) (X := X ++ [v]) (n := n)
      rw [List.append_assoc, List.length_append] at this
      rw [show i + X.length + (v :: vs).length = i + (X.length + [v].length) + vs.length by simp; omega]
      exact this

theorem copyLoop_left' : Triple nf (seg c i (X ++ vs) ∗ P) (copyLoop c c (i + X.length) (i + X.length + vs.length) i n) (Left P c i n (X ++ vs) vs) := by
  induction vs generalizing i X n with
  | nil =>
    rw [copyLoop, if_neg (by simp)]
    exact Triple.ret left_nil
  | cons v vs ih =>
    rw [copyLoop, if_pos (by simp)]
    refine asg_front src_head ?_
    refine go_cons ?_
    have := ih (i := i + 1) (X := shift X v) (n := n + 1)
    rw [shift_length] at this
    rw [show i + X.length + 1 = i + 1 + X.length by omega, show i + X.length + (v :: vs).length = i + 1 + X.length + vs.length by simp; omega]
    exact this

theorem replaceCopyLoop_left {cond : Nat → M V Bool} {q : V → Bool} {new : Loc} {x : V} (hq : Decides nf P c cond q) (hx : Reads P new x) :
    Triple nf (seg c i (X ++ vs) ∗ P) (replaceCopyLoop cond c c new (i + X.length) (i + X.length + vs.length) i n)
      (Left P c i n (X ++ vs) (vs.map fun v => if q v then x else v)) := by
  induction vs generalizing i X n with
  | nil =>
    rw [replaceCopyLoop, if_neg (by simp)]
    exact Triple.ret left_nil
  | cons v vs ih =>
    rw [replaceCopyLoop, if_pos (by simp)]
    refine Triple.bind (hq _ _ _ src_head) ?_
    intro b
    xintro hb
    subst hb
    rw [List.map_cons]
    refine asg_front (y := if q v then x else v) ?_ ?_
    · split
      · exact hx.right
      · exact src_head
    refine go_cons ?_
    have := ih (i := i + 1) (X := shift X v) (n := n + 1)
    rw [shift_length] at this
    rw [show i + X.length + 1 = i + 1 + X.length by omega, show i + X.length + (v :: vs).length = i + 1 + X.length + vs.length by simp; omega]
    exact this

theorem transformLoop_left {op : V → V} :
    Triple nf (seg c i (X ++ vs) ∗ P) (transformLoop c c op (i + X.length) (i + X.length + vs.length) i n)
      (fun r => ⌜r = n + vs.length⌝ ∗ seg c i (over (X ++ vs) (vs.map op)) ∗ P) := by
  induction vs generalizing i X n with
  | nil =>
    rw [transformLoop, if_neg (by simp)]
    apply Triple.ret
    simp [over]
    cancel
  | cons v vs ih =>
    rw [transformLoop, if_pos (by simp)]
    refine ldV_reads src_head ?_
    refine wr_front ?_
    have := ih (i := i + 1) (X := shift X v) (n := n + 1)
    rw [shift_length] at this
    rw [show i + X.length + 1 = i + 1 + X.length by omega, show i + X.length + (v :: vs).length = i + 1 + X.length + vs.length by simp; omega]
    rw [← bind_pure (transformLoop _ _ _ _ _ _ _)]
    call this
    intro r
    xintro hr
    apply Triple.ret
    rw [List.map_cons, over_shift, seg_cons]
    cancel
    simp only [List.length_cons]
    omega

theorem uniqueCopyLoop_left {pred : V → V → Bool} {a : V} :
    Triple nf (seg c i (a :: X ++ vs) ∗ P) (uniqueCopyLoop c c pred (i + 1 + X.length) (i + 1 + X.length + vs.length) i n)
      (fun r => ⌜r = (n + (uniqTail pred a vs).length, i + 1 + (uniqTail pred a vs).length)⌝ ∗ seg c i (a :: over (X ++ vs) (uniqTail pred a vs)) ∗ P) := by
  induction vs generalizing i X n a with
  | nil =>
    rw [uniqueCopyLoop, if_neg (by simp)]
    apply Triple.ret
    simp [over, uniqTail]
    cancel
  | cons v vs ih =>
    rw [uniqueCopyLoop, if_pos (by simp)]
    have hv : Reads (seg c i (a :: X ++ v :: vs) ∗ P) (c (i + 1 + X.length)) v := by
      have := src_head (P := P) (c := c) (i := i) (X := a :: X) (vs := vs) (v := v)
      rw [show i + (a :: X).length = i + 1 + X.length by simp; omega] at this
      exact this
    refine cmp_reads (a := a) (by rw [List.cons_append, seg_cons]; exact Reads.pts.left.left) hv ?_
    rw [uniqTail]
    by_cases hq : pred a v = true
    · rw [hq, if_neg (by simp)]
      simp only [↓reduceIte]
      have := ih (i := i) (X := X ++ [v]) (n := n) (a := a)
      simp only [List.length_append, List.append_assoc, List.cons_append, List.nil_append] at this
      rw [show i + 1 + X.length + (v :: vs).length = i + 1 + (X.length + [v].length) + vs.length by simp; omega]
      exact this
    · have hq' : pred a v = false := by simpa using hq
      rw [hq', if_pos (by simp)]
      simp only [Bool.false_eq_true, ↓reduceIte]
      have hs : (seg c i (a :: X ++ v :: vs) ∗ P) = (seg c (i + 1) (X ++ v :: vs) ∗ pts (c i) (.obj (some a)) ∗ P) := by
        rw [List.cons_append, seg_cons, sep_assoc, ← sep_assoc, sep_comm (pts _ _), sep_assoc]
      rw [hs] at hv ⊢
      refine asg_front hv ?_
      have := ih (i := i + 1) (X := shift X v) (n := n + 1) (a := v)
      rw [shift_length, List.cons_append, seg_cons] at this
      rw [show i + 1 + X.length + (v :: vs).length = i + 1 + 1 + X.length + vs.length by simp; omega, show i + 1 + X.length + 1 = i + 1 + 1 + X.length by omega]
      rw [← bind_pure (uniqueCopyLoop _ _ _ _ _ _ _)]
      call this
      intro r
      xintro hr
      apply Triple.ret
      rw [over_shift, seg_cons, seg_cons]
      cancel
      rw [hr]; ext <;> simp <;> omega

theorem uniqueCopy_left {pred : V → V → Bool} :
    Triple nf (seg c i (X ++ vs) ∗ P) (uniqueCopy c (i + X.length) (i + X.length + vs.length) c i pred) (Left P c i 0 (X ++ vs) (uniq pred vs)) := by
  unfold uniqueCopy
  cases vs with
  | nil =>
    rw [if_pos (by simp)]
    exact Triple.ret left_nil
  | cons v vs =>
    rw [if_neg (by simp)]
    refine asg_front src_head ?_
    have := uniqueCopyLoop_left (nf := nf) (P := P) (c := c) (i := i) (X := shift X v) (vs := vs) (n := 1) (pred := pred) (a := v)
    rw [shift_length, List.cons_append, seg_cons, sep_assoc] at this
    rw [show i + X.length + (v :: vs).length = i + 1 + X.length + vs.length by simp; omega, show i + X.length + 1 = i + 1 + X.length by omega]
    refine Triple.post this fun r => ?_
    unfold Left
    rw [uniq, over_shift]
    simp only [List.length_cons]
    rw [show 1 + (uniqTail pred v vs).length = 0 + ((uniqTail pred v vs).length + 1) by omega, show i + 1 + (uniqTail pred v vs).length = i + ((uniqTail pred v vs).length + 1) by omega]
    exact ent_refl _

theorem intersectionLoop_left {comp : V → V → Bool} (hR : Rng P c' i' ys) :
    Triple nf (seg c i (X ++ vs) ∗ P) (intersectionLoop c c' c comp (i + X.length) (i + X.length + vs.length) i' (i' + ys.length) i n)
      (Left P c i n (X ++ vs) (setL comp false false true vs ys)) := by
  induction vs, ys using setInd (lt := comp) generalizing i i' X n with
  | case1 ys =>
    rw [intersectionLoop, if_neg (by simp), setL_nil_left, if_neg (by simp)]
    exact Triple.ret left_nil
  | case2 xs =>
    rw [intersectionLoop, if_neg (by simp), setL_nil_right, if_neg (by simp)]
    exact Triple.ret left_nil
  | case3 x xs y ys h ih =>
    rw [intersectionLoop, if_pos (by simp), setL_cons, if_pos h]
    refine cmp_reads src_head hR.head.right ?_
    rw [if_pos h]
    have := ih (i := i) (X := X ++ [x]) (n := n) hR
    rw [List.append_assoc, List.length_append] at this
    rw [show i + X.length + (x :: xs).length = i + (X.length + [x].length) + xs.length by simp; omega]
    exact this
  | case4 x xs y ys h h' ih =>
    rw [intersectionLoop, if_pos (by simp), setL_cons, if_neg h, if_pos h']
    refine cmp_reads src_head hR.head.right ?_
    rw [if_neg h]
    refine cmp_reads hR.head.right src_head ?_
    rw [if_pos h']
    have := ih (i := i) (X := X) (n := n) hR.tail
    rw [show i' + (y :: ys).length = i' + 1 + ys.length by simp; omega]
    exact this
  | case5 x xs y ys h h' ih =>
    rw [intersectionLoop, if_pos (by simp), setL_cons, if_neg h, if_neg h']
    refine cmp_reads src_head hR.head.right ?_
    rw [if_neg h]
    refine cmp_reads hR.head.right src_head ?_
    rw [if_neg h']
    refine asg_front src_head ?_
    refine go_cons ?_
    have := ih (i := i + 1) (X := shift X x) (n := n + 1) hR.tail
    rw [shift_length] at this
    rw [show i + X.length + 1 = i + 1 + X.length by omega, show i + X.length + (x :: xs).length = i + 1 + X.length + xs.length by simp; omega,
      show i' + (y :: ys).length = i' + 1 + ys.length by simp; omega]
    exact this

theorem difference_left {comp : V → V → Bool} (hR : Rng P c' i' ys) :
    Triple nf (seg c i (X ++ vs) ∗ P) (do
      let r ← differenceLoop c c' c comp (i + X.length) (i + X.length + vs.length) i' (i' + ys.length) i n
      let r1 ← copy c r.1 (i + X.length + vs.length) c r.2.1
      pure (r.2.2 + r1.1, r1.2))
      (Left P c i n (X ++ vs) (diffL comp vs ys)) := by
  induction vs generalizing i i' X n ys with
  | nil =>
    rw [differenceLoop, if_neg (by simp), pure_bind]
    have h0 : (copy c (i + X.length) (i + X.length + ([] : List V).length) c i : M V (Nat × Nat)) = pure (0, i) := by unfold copy; rw [copyLoop, if_neg (by simp)]
    rw [h0, pure_bind]
    exact Triple.ret left_nil
  | cons x xs ih =>
    cases ys with
    | nil =>
      rw [differenceLoop, if_neg (by simp), pure_bind, diffL_nil]
      refine Triple.bind copyLoop_left' ?_
      intro r
      unfold Left
      xintro hr
      subst hr
      apply Triple.ret
      cancel
      simp
    | cons y ys =>
      rw [differenceLoop, if_pos (by simp), bind_assoc]
      refine cmp_reads src_head hR.head.right ?_
      rw [diffL]
      by_cases h : comp x y = true
      · rw [if_pos h, if_pos h, bind_assoc]
        refine asg_front src_head ?_
        refine go_cons ?_
        have := ih (i := i + 1) (X := shift X x) (n := n + 1) hR
        rw [shift_length] at this
        rw [show i + X.length + 1 = i + 1 + X.length by omega, show i + X.length + (x :: xs).length = i + 1 + X.length + xs.length by simp; omega]
        exact this
      · rw [if_neg h, if_neg h]
        have := ih (i := i) (X := X ++ [x]) (n := n) hR.tail
        rw [List.append_assoc, List.length_append] at this
        rw [show i + X.length + (x :: xs).length = i + (X.length + [x].length) + xs.length by simp; omega, show i' + (y :: ys).length = i' + 1 + ys.length by simp; omega]
        exact this

theorem partitionCopyLoop_left {e : Slots} {k : Nat} {pred : V → Bool} {ws : List V} (hl : (vs.filter fun v => !pred v).length ≤ ws.length) :
    Triple nf (seg c i (X ++ vs) ∗ seg e k ws ∗ P) (partitionCopyLoop c c e pred (i + X.length) (i + X.length + vs.length) i k n)
      (fun r => ⌜r = (n + vs.length, i + (vs.filter pred).length, k + (vs.filter fun v => !pred v).length)⌝ ∗
        seg c i (over (X ++ vs) (vs.filter pred)) ∗ seg e k (over ws (vs.filter fun v => !pred v)) ∗ P) := by
  induction vs generalizing i k X n ws P with
  | nil =>
    rw [partitionCopyLoop, if_neg (by simp)]
    apply Triple.ret
    simp [over]
    cancel
  | cons v vs ih =>
    rw [partitionCopyLoop, if_pos (by simp)]
    refine test_reads src_head ?_
    by_cases h : pred v = true
    · rw [if_pos h]
      rw [List.filter_cons_of_neg (by simp [h])] at hl
      rw [List.filter_cons_of_pos h, List.filter_cons_of_neg (by simp [h])]
      refine asg_front src_head ?_
      have := ih (i := i + 1) (k := k) (X := shift X v) (n := n + 1) (P := P) hl
      rw [shift_length] at this
      rw [show i + X.length + 1 = i + 1 + X.length by omega, show i + X.length + (v :: vs).length = i + 1 + X.length + vs.length by simp; omega]
      rw [← bind_pure (partitionCopyLoop _ _ _ _ _ _ _ _ _)]
      call this
      intro r
      xintro hr
      apply Triple.ret
      rw [over_shift, seg_cons]
      cancel
      rw [hr]; simp; omega
    · rw [if_neg h]
      rw [List.filter_cons_of_pos (by simp [h])] at hl
      rw [List.filter_cons_of_neg h, List.filter_cons_of_pos (by simp [h])]
      cases ws with
      | nil => simp at hl
      | cons w ws =>
        rw [seg_cons]
        have hr : Reads (pts (e k) (.obj (some w)) ∗ seg c i (X ++ v :: vs) ∗ seg e (k + 1) ws ∗ P) (c (i + X.length)) v := src_head.right
        refine Triple.pre (P' := pts (e k) (.obj (some w)) ∗ seg c i (X ++ v :: vs) ∗ seg e (k + 1) ws ∗ P) (by cancel) ?_
        refine Triple.bind (asg_pts hr) ?_
        intro _
        have := ih (i := i) (k := k + 1) (X := X ++ [v]) (n := n + 1) (P := P) (ws := ws) (by simpa using hl)
        rw [List.append_assoc, List.length_append, List.singleton_append, List.length_singleton, ← Nat.add_assoc] at this
        rw [show i + X.length + (v :: vs).length = i + X.length + 1 + vs.length by simp; omega]
        rw [← bind_pure (partitionCopyLoop _ _ _ _ _ _ _ _ _)]
        call this
        intro r
        xintro hr
        apply Triple.ret
        rw [show over (w :: ws) (v :: vs.filter fun v => !pred v) = v :: over ws (vs.filter fun v => !pred v) by simp [over], seg_cons]
        refine ent_pure_right (by rw [hr]; simp; omega) ?_
        cancel

/-- copying `b` elements to the place `k` positions further on, in the same range, when `a` of them have been copied -/
theorem copyLoop_right {k a b n : Nat} {us : List V} (hk : 0 < k) (hab : a ≤ b) (hb : b + k ≤ vs.length) (hu : us.length = vs.length)
    (h : ∀ p, us[p]? = if k ≤ p ∧ p < a + k then vs[p % k]? else vs[p]?) :
    Triple nf (seg c i us ∗ P) (copyLoop c c (i + a) (i + b) (i + a + k) n)
      (fun r => ∃ₛ zs, ⌜r = (n + (b - a), i + b + k) ∧ zs.length = vs.length ∧ ∀ p, zs[p]? = if k ≤ p ∧ p < b + k then vs[p % k]? else vs[p]?⌝ ∗ seg c i zs ∗ P) := by
  obtain ⟨m, hm⟩ : ∃ m, m = b - a := ⟨_, rfl⟩
  induction m generalizing a us n with
  | zero =>
    obtain rfl : a = b := by omega
    rw [copyLoop, if_neg (by simp)]
    apply Triple.ret
    xexists us
    cancel
    exact ⟨by simp, hu, h⟩
  | succ m ih =>
    rw [copyLoop, if_pos (by omega)]
    have ha : a < us.length := by omega
    rw [Nat.add_assoc i a k]
    refine asg_at (v := us[a]) (by omega) (own ha) ?_
    have := ih (a := a + 1) (us := us.set (a + k) us[a]) (n := n + 1) (by omega) (by simpa using hu) ?_ (by omega)
    · rw [show i + (a + 1) = i + a + 1 by omega, show i + a + 1 + k = i + (a + k) + 1 by omega] at this
      refine Triple.post this fun r => ?_
      refine ent_ex_left fun zs => ent_ex_right zs ?_
      refine ent_pure_left fun h => ent_pure_right ?_ (ent_refl _)
      exact ⟨by rw [h.1]; simp; omega, h.2⟩
    · intro p
      rw [List.getElem?_set]
      by_cases hp : a + k = p
      · rw [if_pos hp, if_pos (by omega), if_pos (by omega)]
        have h2 := h a
        rw [List.getElem?_eq_getElem ha] at h2
        rw [h2, ← hp, Nat.add_mod_right]
        by_cases h3 : k ≤ a ∧ a < a + k
        · rw [if_pos h3]
        · rw [if_neg h3, Nat.mod_eq_of_lt (by omega)]
      · rw [if_neg hp, h p]
        by_cases h3 : k ≤ p ∧ p < a + k
        · rw [if_pos h3, if_pos (by omega)]
        · rw [if_neg h3, if_neg (by omega)]

end CC.Algo
