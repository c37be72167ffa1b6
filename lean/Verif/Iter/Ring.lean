import Verif.Iter.Sources
import Verif.Iter.Ops
/-!
# The iterators of a list go round

The sentinel of a `c_list` is linked between the last and the first node, so that moving an iterator past the end leads back to the beginning.
-/
namespace CC.Iter
open CC CC.Tac
open CC.CList (Elem nodes firstN lastN firstN_nil firstN_cons)
variable {V β : Type} {nf : Prop} {Z : Nat → Nat} {F C : HProp V} {r : Src V}

/-- the place `n` steps after place `i`, on a ring of `N` places -/
def around (N i : Nat) (n : Int) : Nat := (((i : Int) + n) % (N : Int)).toNat

theorem around_lt {N i : Nat} {n : Int} (hN : 0 < N) : around N i n < N := by
  unfold around
  have h1 : 0 ≤ ((i : Int) + n) % (N : Int) := Int.emod_nonneg _ (by omega)
  have h2 : ((i : Int) + n) % (N : Int) < N := Int.emod_lt_of_pos _ (by omega)
  omega

theorem around_cast {N i : Nat} {n : Int} (hN : 0 < N) : ((around N i n : Nat) : Int) = ((i : Int) + n) % (N : Int) := by
  unfold around
  have h1 : 0 ≤ ((i : Int) + n) % (N : Int) := Int.emod_nonneg _ (by omega)
  omega

theorem around_add {N i : Nat} {n m : Int} (hN : 0 < N) : around N (around N i n) m = around N i (n + m) := by
  apply Int.ofNat_inj.1
  rw [around_cast hN, around_cast hN, around_cast hN, Int.emod_add_emod, Int.add_assoc]

theorem around_in {N i : Nat} {n : Int} (h0 : 0 ≤ (i : Int) + n) (h1 : (i : Int) + n < N) : around N i n = ((i : Int) + n).toNat := by
  unfold around
  rw [Int.emod_eq_of_lt h0 h1]

theorem around_zero {N i : Nat} (hi : i < N) : around N i 0 = i := by
  rw [around_in (by omega) (by omega)]; omega

/-- the iterators of `r` go round -/
structure Ring (nf : Prop) (C : HProp V) (r : Src V) : Prop where
  nodal : r.kind.nodal
  bidir : r.kind.bidir
  inj : ∀ h (F : HProp V), (C ∗ F) h → ∀ i j, i ≤ r.len → j ≤ r.len → r.pay i = r.pay j → i = j
  next : ∀ i, i ≤ r.len → Triple nf C (fwdP r.kind (r.pay i)) (fun p => ⌜p = r.pay (around (r.len + 1) i 1)⌝ ∗ C)
  prev : ∀ i, i ≤ r.len → Triple nf C (bwdP r.kind (r.pay i)) (fun p => ⌜p = r.pay (around (r.len + 1) i (-1))⌝ ∗ C)

theorem Ring.steps {f : Pay → M V Pay} {d : Int} (hf : ∀ i, i ≤ r.len → Triple nf C (f (r.pay i)) (fun p => ⌜p = r.pay (around (r.len + 1) i d)⌝ ∗ C)) {i n : Nat} (hi : i ≤ r.len) :
    Triple nf C (advLoop f (r.pay i) n) (fun p => ⌜p = r.pay (around (r.len + 1) i (n * d))⌝ ∗ C) := by
  induction n generalizing i with
  | zero => exact Triple.ret (ent_pure_right (by rw [Int.natCast_zero, Int.zero_mul, around_zero (by omega)]) (ent_refl _))
  | succ n ih =>
    unfold advLoop
    refine Triple.bind (hf i hi) fun p => ?_
    refine Triple.pure_left fun hp => ?_
    subst hp
    have hl := around_lt (N := r.len + 1) (i := i) (n := d) (by omega)
    have := ih (i := around (r.len + 1) i d) (by omega)
    rw [around_add (by omega)] at this
    rwa [show ((n + 1 : Nat) : Int) * d = d + n * d by rw [Int.natCast_succ, Int.add_mul, Int.one_mul, Int.add_comm]]

theorem Ring.adv (hr : Ring nf C r) {i : Nat} {n : Int} (hi : i ≤ r.len) : Triple nf C (advP r.kind (r.pay i) n) (fun p => ⌜p = r.pay (around (r.len + 1) i n)⌝ ∗ C) := by
  rw [advP_nodal hr.nodal (.inr hr.bidir)]
  by_cases hn : n > 0
  · rw [if_pos hn]
    have := Ring.steps (n := n.toNat) hr.next hi
    rwa [show (n.toNat : Int) * 1 = n by omega] at this
  · rw [if_neg hn]
    have := Ring.steps (n := (-n).toNat) hr.prev hi
    rwa [show ((-n).toNat : Int) * -1 = n by omega] at this

theorem Ring.dist (hr : Ring nf C r) {i j k n : Nat} (hi : i ≤ r.len) (hj : j ≤ r.len) (hk : k = around (r.len + 1) j (-i)) :
    Triple nf C (distLoop (fwdP r.kind) (r.pay i) (r.pay j) n) (fun d => ⌜d = n + k⌝ ∗ C) := by
  have hN : 0 < r.len + 1 := by omega
  induction k generalizing i n with
  | zero =>
    have h1 : around (r.len + 1) 0 i = around (r.len + 1) (around (r.len + 1) j (-i)) i := by rw [← hk]
    rw [around_add hN, show (-(i : Int)) + i = 0 by omega, around_zero (by omega), around_in (by omega) (by omega)] at h1
    obtain rfl : i = j := by omega
    rw [distLoop]
    simp only [ne_eq, not_true_eq_false, ↓reduceIte]
    exact Triple.ret (ent_pure_right rfl (ent_refl _))
  | succ k ih =>
    refine Triple.fact (p := r.pay i ≠ r.pay j) (fun h hh he => ?_) fun hne => ?_
    · have hij := hr.inj h emp (by rw [sep_emp]; exact hh) i j hi hj he
      subst hij
      rw [around_in (by omega) (by omega)] at hk
      omega
    rw [distLoop]
    rw [if_pos hne]
    refine Triple.bind (hr.next i hi) fun p => ?_
    refine Triple.pure_left fun hp => ?_
    subst hp
    have hl := around_lt (N := r.len + 1) (i := i) (n := 1) hN
    have hl2 := around_lt (N := r.len + 1) (i := j) (n := -i) hN
    have hk2 : k = around (r.len + 1) j (-(around (r.len + 1) i 1 : Nat)) := by
      apply Int.ofNat_inj.1
      have hc : ((k + 1 : Nat) : Int) = ((j : Int) + -i) % ((r.len + 1 : Nat) : Int) := by rw [hk, around_cast hN]
      rw [around_cast hN, around_cast hN, ← Int.sub_eq_add_neg, Int.sub_emod, Int.emod_emod, ← Int.sub_emod]
      rw [show (j : Int) - (i + 1) = (j + -i) - 1 by omega, Int.sub_emod, ← hc]
      have h1 : ((k + 1 : Nat) : Int) < ((r.len + 1 : Nat) : Int) := by rw [hk]; omega
      rw [show ((k + 1 : Nat) : Int) - 1 % ((r.len + 1 : Nat) : Int) = k by
        rw [Int.emod_eq_of_lt (by omega) (by omega)]; omega]
      rw [Int.emod_eq_of_lt (by omega) (by omega)]
    have := ih (i := around (r.len + 1) i 1) (n := n + 1) (by omega) hk2
    rwa [show n + 1 + k = n + (k + 1) by omega] at this

/-! ### lists -/
section
variable {l s ty : Nat} {xs : List (Elem V)}

theorem ring_nxt : Triple nf (CList.isList l s ty xs) (CList.nxt s) (fun r => ⌜r = firstN xs s⌝ ∗ CList.isList l s ty xs) := by
  simp only [CList.isList, CList.hdr, CList.path_first, CList.link]
  rw [← bind_pure (CList.nxt s)]
  steps
  apply Triple.ret
  cancel

theorem ring_fwd {i : Nat} (hi : i ≤ xs.length) :
    Triple nf (CList.isList l s ty xs) (CList.nxt (nodeAt xs s i)) (fun r => ⌜r = nodeAt xs s (around (xs.length + 1) i 1)⌝ ∗ CList.isList l s ty xs) := by
  rcases Nat.lt_or_eq_of_le hi with h | h
  · rw [around_in (by omega) (by omega)]
    have := list_nxt (nf := nf) (l := l) (s := s) (ty := ty) h
    rwa [show ((i : Int) + 1).toNat = i + 1 by omega]
  · subst h
    have h0 : around (xs.length + 1) xs.length 1 = 0 := by
      unfold around
      rw [show ((xs.length : Int) + 1) = ((xs.length + 1 : Nat) : Int) by omega, Int.emod_self]; rfl
    rw [h0, nodeAt_len]
    exact ring_nxt

theorem ring_bwd {i : Nat} (hi : i ≤ xs.length) :
    Triple nf (CList.isList l s ty xs) (CList.prv (nodeAt xs s i)) (fun r => ⌜r = nodeAt xs s (around (xs.length + 1) i (-1))⌝ ∗ CList.isList l s ty xs) := by
  cases i with
  | zero =>
    have h0 : around (xs.length + 1) 0 (-1) = xs.length := by
      apply Int.ofNat_inj.1
      rw [around_cast (by omega), show ((0 : Nat) : Int) + -1 = (xs.length : Int) + ((xs.length + 1 : Nat) : Int) * (-1) by omega, Int.add_mul_emod_self_left]
      exact Int.emod_eq_of_lt (by omega) (by omega)
    rw [h0, nodeAt_len]
    have := CList.prv_spec (nf := nf) (l := l) (s := s) (ty := ty) (X := []) (Y := xs)
    exact this
  | succ i =>
    rw [around_in (by omega) (by omega)]
    have := list_prv (nf := nf) (l := l) (s := s) (ty := ty) (i := i) hi
    rwa [show (((i + 1 : Nat) : Int) + -1).toNat = i by omega]

theorem ring_list : Ring nf (CList.isList l s ty xs) (listSrc l s ty xs) where
  nodal := .inr (.inl rfl)
  bidir := by intro h; cases h
  inj := fun h F hh i j hi hj he => list_inj hh hi hj (Pay.node.inj he)
  next := fun i hi => node_spec (ring_fwd hi)
  prev := fun i hi => node_spec (ring_bwd hi)

theorem mirror {n i : Nat} {d : Int} (hi : i ≤ n) : around (n + 1) (n - i) (-d) = n - around (n + 1) i d := by
  have h := around_lt (N := n + 1) (i := i) (n := d) (by omega)
  have h2 : around (n + 1) (n - i) (-d) = around (n + 1) n (-(around (n + 1) i d : Nat)) := by
    apply Int.ofNat_inj.1
    have key : ∀ a b N : Int, (a + -(b % N)) % N = (a + -b) % N := by
      intro a b N
      rw [← Int.sub_eq_add_neg, ← Int.sub_eq_add_neg, Int.sub_emod, Int.emod_emod, ← Int.sub_emod]
    rw [around_cast (by omega), around_cast (by omega), around_cast (by omega), key]
    congr 1
    omega
  rw [h2, around_in (by omega) (by omega)]
  omega

theorem ring_listR : Ring nf (CList.isList l s ty xs) (listSrcR l s ty xs) where
  nodal := .inr (.inr (.inl rfl))
  bidir := by intro h; cases h
  inj := fun h F hh i j hi hj he => by
    have := list_inj hh (by omega) (by omega) (Pay.node.inj he)
    change i ≤ xs.length at hi
    change j ≤ xs.length at hj
    omega
  next := fun i hi => by
    have := ring_bwd (nf := nf) (l := l) (s := s) (ty := ty) (xs := xs) (i := xs.length - i) (by omega)
    rw [mirror (d := 1) (show i ≤ xs.length from hi)] at this
    exact node_spec this
  prev := fun i hi => by
    have := ring_fwd (nf := nf) (l := l) (s := s) (ty := ty) (xs := xs) (i := xs.length - i) (by omega)
    have hm := mirror (d := -1) (show i ≤ xs.length from hi)
    rw [Int.neg_neg] at hm
    rw [hm] at this
    exact node_spec this
end

/-! ### iterator objects -/
section
variable {Q : β → HProp V}

theorem cInc_ring {i a : Nat} {K : Nat → M V β} (hr : Ring nf C r) (hi : i ≤ r.len) (hk : Triple nf (isIt r.kind r.ty a (r.pay (around (r.len + 1) i 1)) ∗ C ∗ F) (K a) Q) :
    Triple nf (isIt r.kind r.ty a (r.pay i) ∗ C ∗ F) (cInc a >>= K) Q := by
  unfold cInc increment
  simp only [bind_assoc]
  refine opsOf_cps ?_
  refine isIter_cps ?_
  simp only [decide_true, ↓reduceIte, bind_assoc, pure_bind]
  exact move_cps (K := fun _ => K a) (hr.next i hi) hk

theorem cDec_ring {i a : Nat} {K : Nat → M V β} (hr : Ring nf C r) (hi : i ≤ r.len) (hk : Triple nf (isIt r.kind r.ty a (r.pay (around (r.len + 1) i (-1))) ∗ C ∗ F) (K a) Q) :
    Triple nf (isIt r.kind r.ty a (r.pay i) ∗ C ∗ F) (cDec a >>= K) Q := by
  unfold cDec decrement
  simp only [bind_assoc]
  refine opsOf_cps ?_
  rw [if_neg hr.bidir, bind_assoc]
  refine isIter_cps ?_
  simp only [decide_true, ↓reduceIte, bind_assoc, pure_bind]
  exact move_cps (K := fun _ => K a) (hr.prev i hi) hk

theorem cAdvance_ring {i a : Nat} {n : Int} {K : Unit → M V β} (hr : Ring nf C r) (hi : i ≤ r.len) (hk : Triple nf (isIt r.kind r.ty a (r.pay (around (r.len + 1) i n)) ∗ C ∗ F) (K ()) Q) :
    Triple nf (isIt r.kind r.ty a (r.pay i) ∗ C ∗ F) (cAdvance a n >>= K) Q := by
  unfold cAdvance advance
  simp only [bind_assoc]
  refine opsOf_cps ?_
  refine isIter_cps ?_
  simp only [decide_true, ↓reduceIte, bind_assoc, pure_bind]
  exact move_cps (f := fun p => advP r.kind p n) (hr.adv hi) hk

theorem cDistance_ring {i j a b : Nat} {K : Int → M V β} (hr : Ring nf C r) (hi : i ≤ r.len) (hj : j ≤ r.len)
    (hk : Triple nf (isIt r.kind r.ty a (r.pay i) ∗ isIt r.kind r.ty b (r.pay j) ∗ C ∗ F) (K (((j : Int) - i) % ((r.len : Int) + 1))) Q) :
    Triple nf (isIt r.kind r.ty a (r.pay i) ∗ isIt r.kind r.ty b (r.pay j) ∗ C ∗ F) (cDistance Z a b >>= K) Q := by
  refine Triple.fact (p := a ≠ 0) (fun h hh => isIt_ne hh) fun ha => ?_
  refine Triple.fact (p := b ≠ 0) (fun h hh => isIt_ne (k := r.kind) (ty := r.ty) (a := b) (p := r.pay j) (F := isIt r.kind r.ty a (r.pay i) ∗ C ∗ F)
    ((show _ ⊢ₛ _ by cancel) _ hh)) fun hb => ?_
  refine cDistance_reads (ItAt.of_ent ha (ent_refl _)) (ItAt.of_ent (R := isIt r.kind r.ty a (r.pay i) ∗ C ∗ F) hb (by cancel)) ?_
  rw [distP_nodal hr.nodal]
  simp only [bind_assoc, pure_bind]
  refine Triple.bind (Q := fun d => ⌜d = 0 + around (r.len + 1) j (-i)⌝ ∗ isIt r.kind r.ty a (r.pay i) ∗ isIt r.kind r.ty b (r.pay j) ∗ C ∗ F) ?_ fun d => ?_
  · refine Triple.conseq (Triple.frame (R := isIt r.kind r.ty a (r.pay i) ∗ isIt r.kind r.ty b (r.pay j) ∗ F) (hr.dist (n := 0) hi hj rfl)) (by cancel) fun d => ?_
    cancel
  · refine Triple.pure_left fun hd => ?_
    rw [show ((d : Nat) : Int) = ((j : Int) - i) % ((r.len : Int) + 1) by
      rw [hd, Nat.zero_add, around_cast (by omega)]; rfl]
    exact hk
end

end CC.Iter
