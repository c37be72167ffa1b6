import Verif.Iter.Spec
import Verif.Tree.Peek
/-!
# Operations on one iterator object, read-only operations on two
-/
namespace CC.Iter
open CC CC.Tac
variable {V β : Type} {nf : Prop} {Z : Nat → Nat} {C F P : HProp V} {r : Src V} {Q : β → HProp V}

/-- the fragments with `P` contain an iterator struct -/
def ItAt (P : HProp V) (k : Kind) (ty a : Nat) (p : Pay) : Prop :=
  a ≠ 0 ∧ ReadsN P (a, 1) k.cate ∧ ReadsN P (a, 2) k.type ∧ ReadsN P (a, 3) k.ops ∧ ReadsN P (a, 4) ty ∧ ∀ h, P h → h (a, 5) = some p.val

theorem ItAt.of_ent {k : Kind} {ty a : Nat} {p : Pay} {R : HProp V} (ha : a ≠ 0) (he : P ⊢ₛ isIt k ty a p ∗ R) : ItAt P k ty a p := by
  unfold isIt at he
  refine ⟨ha, .of_ent (R := _) (ent_trans he (by cancel)), .of_ent (R := _) (ent_trans he (by cancel)), .of_ent (R := _) (ent_trans he (by cancel)),
    .of_ent (R := _) (ent_trans he (by cancel)), fun h hh => ?_⟩
  exact cell_of (R := _) hh (ent_trans he (by cancel))

theorem load_reads {l : Loc} {v : Val V} {K : Val V → M V β} (hr : ∀ h, P h → h l = some v) (hk : Triple nf P (K v) Q) : Triple nf P (load l >>= K) Q := by
  intro s F hnf hs
  have h1 : s.cells l = some v := by
    obtain ⟨h₁, h₂, hd, he, hp, _⟩ := hs
    rw [he]
    simp [Heap.union, hr _ hp]
  obtain ⟨a, s', e, ho, hq⟩ := hk s.bump F hnf hs
  refine ⟨a, s', ?_, ho, hq⟩
  rw [← e]
  unfold load
  simp only [bind, StateT.bind, get, getThe, MonadStateOf.get, StateT.get, ExceptT.bind, ExceptT.mk, ExceptT.bindCont, pure, ExceptT.pure, Option.bind, h1]
  rfl

section
variable {k k' : Kind} {ty ty' a b : Nat} {p q : Pay}

theorem ItAt.isIter {K : Bool → M V β} (hi : ItAt P k' ty a p) (hk : Triple nf P (K (decide (k = k'))) Q) : Triple nf P (isIter k a >>= K) Q := by
  obtain ⟨ha, h1, h2, h3, h4, h5⟩ := hi
  unfold Iter.isIter
  rw [if_neg ha, bind_assoc]
  refine ldN_reads h1 ?_
  by_cases hc : k'.cate = k.cate
  · rw [if_neg (by simp [hc]), bind_assoc]
    refine ldN_reads h2 ?_
    rw [pure_bind]
    have : (k'.type == k.type) = decide (k = k') := by
      by_cases h2 : k = k'
      · simp [h2]
      · simp only [h2, decide_false, beq_eq_false_iff_ne]
        exact fun h => h2 (kind_type_inj h).symm
    rw [this]
    exact hk
  · rw [if_pos (by simp [hc]), pure_bind]
    have : decide (k = k') = false := by
      simp only [decide_eq_false_iff_not]
      rintro rfl
      exact hc rfl
    rw [this] at hk
    exact hk

theorem ItAt.opsOf {K : Kind → M V β} (hi : ItAt P k ty a p) (hk : Triple nf P (K k) Q) : Triple nf P (opsOf a >>= K) Q := by
  unfold Iter.opsOf
  rw [if_neg hi.1, bind_assoc]
  refine ldN_reads hi.2.2.2.1 ?_
  rw [tableAt_ops, pure_bind]
  exact hk

theorem ItAt.ldPay {K : Pay → M V β} (hi : ItAt P k ty a p) (hk : Triple nf P (K p) Q) : Triple nf P (ldPay a >>= K) Q := by
  unfold Iter.ldPay
  rw [bind_assoc]
  refine load_reads hi.2.2.2.2.2 ?_
  cases p <;> exact hk

theorem ItAt.ldTy {K : Nat → M V β} (hi : ItAt P k ty a p) (hk : Triple nf P (K ty) Q) : Triple nf P (ldN (a, 4) >>= K) Q :=
  ldN_reads hi.2.2.2.2.1 hk

/-- `C_ITER_EQ`: false for iterators of different kinds, otherwise equality of the payloads -/
theorem cEq_reads {K : Bool → M V β} (h1 : ItAt P k ty a p) (h2 : ItAt P k' ty' b q)
    (hk : Triple nf P (K (decide (k = k' ∧ p = q))) Q) : Triple nf P (cEq a b >>= K) Q := by
  unfold cEq equal
  simp only [bind_assoc]
  refine h1.opsOf ?_
  refine h1.isIter ?_
  simp only [decide_true, Bool.not_true, Bool.false_eq_true, ↓reduceIte, bind_assoc]
  refine h2.isIter ?_
  by_cases hkk : k = k'
  · simp only [hkk, decide_true, Bool.not_true, Bool.false_eq_true, ↓reduceIte, bind_assoc, true_and] at hk ⊢
    refine h1.ldPay ?_
    refine h2.ldPay ?_
    rw [pure_bind]
    exact hk
  · simp only [hkk, decide_false, Bool.not_false, ↓reduceIte, pure_bind, false_and] at hk ⊢
    exact hk

theorem cEq_null_reads {K : Bool → M V β} (h1 : ItAt P k ty a p) (hk : Triple nf P (K false) Q) : Triple nf P (cEq a 0 >>= K) Q := by
  unfold cEq equal
  simp only [bind_assoc]
  refine h1.opsOf ?_
  refine h1.isIter ?_
  simp only [decide_true, Bool.not_true, Bool.false_eq_true, ↓reduceIte, bind_assoc]
  refine isIter_null_cps ?_
  simp only [Bool.not_false, ↓reduceIte, pure_bind]
  exact hk

theorem cNe_reads {K : Bool → M V β} (h1 : ItAt P k ty a p) (h2 : ItAt P k' ty' b q)
    (hk : Triple nf P (K (decide (¬ (k = k' ∧ p = q)))) Q) : Triple nf P (cNe a b >>= K) Q := by
  have e : (cNe a b : M V Bool) = (do let r ← cEq a b; pure (!r)) := by
    unfold cNe cEq notEqual
    simp only [bind_assoc]
  rw [e, bind_assoc]
  refine cEq_reads h1 h2 ?_
  rw [pure_bind]
  rw [decide_not] at hk
  exact hk

theorem cNe_null_reads {K : Bool → M V β} (h1 : ItAt P k ty a p) (hk : Triple nf P (K true) Q) : Triple nf P (cNe a 0 >>= K) Q := by
  have e : (cNe a 0 : M V Bool) = (do let r ← cEq a 0; pure (!r)) := by
    unfold cNe cEq notEqual
    simp only [bind_assoc]
  rw [e, bind_assoc]
  refine cEq_null_reads h1 ?_
  rw [pure_bind]
  exact hk

/-- comparison with `<` of iterators of the same source -/
theorem cLess_reads {K : Bool → M V β} (hr : k.random) (h1 : ItAt P k ty a p) (h2 : ItAt P k ty' b q)
    (hk : Triple nf P (lessP k p q >>= K) Q) : Triple nf P (cLess a b >>= K) Q := by
  have hc : k.cate = 4 := by rcases hr with h | h | h | h <;> rw [h] <;> rfl
  unfold cLess less
  simp only [bind_assoc]
  refine h1.opsOf ?_
  simp only [hc, ne_eq, not_true_eq_false, ↓reduceIte, bind_assoc]
  refine h1.isIter ?_
  simp only [decide_true, Bool.not_true, Bool.false_eq_true, ↓reduceIte, bind_assoc]
  refine h2.isIter ?_
  simp only [decide_true, Bool.not_true, Bool.false_eq_true, ↓reduceIte, bind_assoc]
  refine h1.ldPay ?_
  refine h2.ldPay ?_
  exact hk

theorem cDistance_reads {K : Int → M V β} (h1 : ItAt P k ty a p) (h2 : ItAt P k ty' b q)
    (hk : Triple nf P (distP (Z ty) k p q >>= K) Q) : Triple nf P (cDistance Z a b >>= K) Q := by
  unfold cDistance distance
  simp only [bind_assoc]
  refine h1.opsOf ?_
  refine h1.isIter ?_
  simp only [decide_true, Bool.not_true, Bool.false_eq_true, ↓reduceIte, bind_assoc]
  refine h2.isIter ?_
  simp only [decide_true, Bool.not_true, Bool.false_eq_true, ↓reduceIte, bind_assoc]
  refine h1.ldPay ?_
  refine h2.ldPay ?_
  refine h1.ldTy ?_
  exact hk

theorem cDeref_reads {K : Loc → M V β} (h1 : ItAt P k ty a p) (hk : Triple nf P (derefP k p >>= K) Q) : Triple nf P (cDeref a >>= K) Q := by
  unfold cDeref dereference
  simp only [bind_assoc]
  refine h1.opsOf ?_
  refine h1.isIter ?_
  simp only [decide_true, ↓reduceIte, bind_assoc]
  refine h1.ldPay ?_
  exact hk

/-- `C_ITER_ASSIGN` of iterators of one kind copies the position, of different kinds does nothing -/
theorem cAssign_cps {K : Nat → M V β} (h2 : ItAt (isIt k ty a p ∗ F) k' ty' b q)
    (hk : Triple nf (isIt k ty a (if k = k' then q else p) ∗ F) (K a) Q) : Triple nf (isIt k ty a p ∗ F) (cAssign a b >>= K) Q := by
  unfold cAssign assign
  simp only [bind_assoc]
  refine opsOf_cps ?_
  refine isIter_cps ?_
  simp only [decide_true, Bool.not_true, Bool.false_eq_true, ↓reduceIte, bind_assoc]
  refine h2.isIter ?_
  by_cases hkk : k = k'
  · subst hkk
    simp only [decide_true, Bool.not_true, Bool.false_eq_true, ↓reduceIte, bind_assoc] at hk ⊢
    by_cases hab : a = b
    · subst hab
      have hpq : Triple nf (isIt k ty a p ∗ F) (K a) Q := by
        refine Triple.fact (p := p = q) (fun m hm => ?_) (fun e => by rw [e]; exact hk)
        have e1 := h2.2.2.2.2.2 m hm
        have e2 := cell_of (l := (a, 5)) (v := p.val) (R := _) hm (by unfold isIt; cancel)
        rw [e2] at e1
        cases p <;> cases q <;> simp_all [Pay.val]
      simp only [ne_eq, not_true_eq_false, ↓reduceIte, pure_bind]
      exact hpq
    · simp only [ne_eq, hab, not_false_eq_true, ↓reduceIte, bind_assoc, pure_bind]
      refine h2.ldPay ?_
      refine stPay_cps ?_
      exact hk
  · simp only [hkk, decide_false, Bool.not_false, ↓reduceIte, pure_bind] at hk ⊢
    exact hk

end

/-- `f` moves the position `i` of `r` to `j` -/
theorem move_cps {i j : Nat} {f : Pay → M V Pay} {a : Nat} {K : Unit → M V β} (hf : Triple nf C (f (r.pay i)) (fun p => ⌜p = r.pay j⌝ ∗ C))
    (hk : Triple nf (isIt r.kind r.ty a (r.pay j) ∗ C ∗ F) (K ()) Q) :
    Triple nf (isIt r.kind r.ty a (r.pay i) ∗ C ∗ F) (do let p ← ldPay a; let p ← f p; stPay a p; K ()) Q := by
  refine ldPay_cps ?_
  refine Triple.bind (Q := fun p => ⌜p = r.pay j⌝ ∗ isIt r.kind r.ty a (r.pay i) ∗ C ∗ F) ?_ fun p => ?_
  · refine Triple.conseq (Triple.frame (R := isIt r.kind r.ty a (r.pay i) ∗ F) hf) (by cancel) fun p => ?_
    cancel
  · refine Triple.pure_left fun hp => ?_
    subst hp
    exact stPay_cps hk

theorem cInc_cps {i a : Nat} {K : Nat → M V β} (hr : r.Ok nf Z C) (hi : i < r.len) (hk : Triple nf (isIt r.kind r.ty a (r.pay (i + 1)) ∗ C ∗ F) (K a) Q) :
    Triple nf (isIt r.kind r.ty a (r.pay i) ∗ C ∗ F) (cInc a >>= K) Q := by
  unfold cInc increment
  simp only [bind_assoc]
  refine opsOf_cps ?_
  refine isIter_cps ?_
  simp only [decide_true, ↓reduceIte, bind_assoc, pure_bind]
  exact move_cps (K := fun _ => K a) (hr.next i hi) hk

theorem cDec_cps {i a : Nat} {K : Nat → M V β} (hr : r.Ok nf Z C) (hb : r.kind.bidir) (hi : i < r.len) (hk : Triple nf (isIt r.kind r.ty a (r.pay i) ∗ C ∗ F) (K a) Q) :
    Triple nf (isIt r.kind r.ty a (r.pay (i + 1)) ∗ C ∗ F) (cDec a >>= K) Q := by
  unfold cDec decrement
  simp only [bind_assoc]
  refine opsOf_cps ?_
  rw [if_neg hb, bind_assoc]
  refine isIter_cps ?_
  simp only [decide_true, ↓reduceIte, bind_assoc, pure_bind]
  exact move_cps (K := fun _ => K a) (hr.prev hb i hi) hk

theorem cAdvance_cps {i a : Nat} {n : Int} {K : Unit → M V β} (hr : r.Ok nf Z C) (hi : i ≤ r.len) (h0 : 0 ≤ (i : Int) + n) (h1 : (i : Int) + n ≤ r.len) (h2 : 0 ≤ n ∨ r.kind.bidir)
    (hk : Triple nf (isIt r.kind r.ty a (r.pay ((i : Int) + n).toNat) ∗ C ∗ F) (K ()) Q) :
    Triple nf (isIt r.kind r.ty a (r.pay i) ∗ C ∗ F) (cAdvance a n >>= K) Q := by
  unfold cAdvance advance
  simp only [bind_assoc]
  refine opsOf_cps ?_
  refine isIter_cps ?_
  simp only [decide_true, ↓reduceIte, bind_assoc, pure_bind]
  exact move_cps (f := fun p => advP r.kind p n) (hr.adv i n hi h0 h1 h2) hk

/-- a copy is a new iterator object with the same content; if it cannot be allocated, NULL is stored -/
theorem allocAndCopy_cps {k : Kind} {ty a : Nat} {p : Pay} {self : Loc} {K : Unit → M V β}
    (hk : ∀ q, q ≠ 0 → Triple nf (isIt k ty q p ∗ pts self (.num q) ∗ isIt k ty a p ∗ F) (K ()) Q)
    (hf : ¬ nf → Triple nf (pts self (.num 0) ∗ isIt k ty a p ∗ F) (K ()) Q) :
    Triple nf (pts self (.num 0) ∗ isIt k ty a p ∗ F) (allocAndCopy k self a >>= K) Q := by
  refine Triple.fact (p := self.1 ≠ 0) (fun h hh => pts_ne_zero hh) fun hs => ?_
  unfold allocAndCopy
  rw [if_neg hs, bind_assoc]
  step
  simp only [ne_eq, not_true_eq_false, ↓reduceIte, bind_assoc]
  rw [sep_left_comm]
  refine isIter_cps ?_
  simp only [decide_true, ↓reduceIte, bind_assoc]
  refine Triple.mallocG_spec (fun hn => ?_) (fun q j hq => ?_)
  · step
    step
    simp only [ne_eq, not_true_eq_false, ↓reduceIte, pure_bind]
    exact hf hn
  · step
    step
    simp only [ne_eq, hq, not_false_eq_true, ↓reduceIte]
    have h5 : (List.range 5) = [0, 1, 2, 3, 4] := rfl
    rw [isIt_arr]
    refine Triple.bind_frame (R := pts self (.num q) ∗ blk q 5 ∗ blk a 5 ∗ F)
      (memcpy_arr (nf := nf) (b := a) (i := 1) (c := q) (j := 1) (n := 5) (xs := [.num k.cate, .num k.type, .num k.ops, .num ty, p.val])
      (ys := _) rfl ?_) (by cancel) (fun _ => ?_)
    all_goals first
      | (refine Triple.pre ?_ (hk q hq); rw [isIt_arr, isIt_arr]; cancel)
      | simp
end CC.Iter
