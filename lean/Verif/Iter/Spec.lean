import Verif.Iter.Client
import Verif.Core.Bad
/-!
# Iterator objects: their memory and the operations on one or two of them
-/
namespace CC.Iter
open CC CC.Tac
variable {V β : Type} {nf : Prop}

/-- an iterator struct at `a`: kind, value type, payload -/
def isIt (k : Kind) (ty a : Nat) (p : Pay) : HProp V :=
  blk a 5 ∗ fld a 1 k.cate ∗ fld a 2 k.type ∗ fld a 3 k.ops ∗ fld a 4 ty ∗ pts (a, 5) p.val

/-- The iterators of source `r` of the containers `C` behave: moving, dereferencing, comparing is arithmetic on positions. -/
structure Src.Ok (nf : Prop) (Z : Nat → Nat) (C : HProp V) (r : Src V) : Prop where
  ty0 : r.ty ≠ 0
  node0 : ∀ h (F : HProp V), (C ∗ F) h → ∀ i, i ≤ r.len → r.pay i ≠ .node 0
  inj : ∀ h (F : HProp V), (C ∗ F) h → ∀ i j, i ≤ r.len → j ≤ r.len → r.pay i = r.pay j → i = j
  first : Triple nf C r.first (fun p => ⌜p = (r.ty, r.pay 0)⌝ ∗ C)
  last : Triple nf C r.last (fun p => ⌜p = (r.ty, r.pay r.len)⌝ ∗ C)
  next : ∀ i, i < r.len → Triple nf C (fwdP r.kind (r.pay i)) (fun p => ⌜p = r.pay (i + 1)⌝ ∗ C)
  prev : r.kind.bidir → ∀ i, i < r.len → Triple nf C (bwdP r.kind (r.pay (i + 1))) (fun p => ⌜p = r.pay i⌝ ∗ C)
  deref : ∀ i, i < r.len → Triple nf C (derefP r.kind (r.pay i)) (fun l => ⌜l = r.ref i⌝ ∗ C)
  adv : ∀ (i : Nat) (n : Int), i ≤ r.len → 0 ≤ (i : Int) + n → (i : Int) + n ≤ r.len → (0 ≤ n ∨ r.kind.bidir) →
    Triple nf C (advP r.kind (r.pay i) n) (fun p => ⌜p = r.pay ((i : Int) + n).toNat⌝ ∗ C)
  dist : ∀ i j, i ≤ j → j ≤ r.len → Triple nf C (distP (Z r.ty) r.kind (r.pay i) (r.pay j)) (fun d => ⌜d = (j : Int) - i⌝ ∗ C)
  less : r.kind.random → ∀ i j, i ≤ r.len → j ≤ r.len → Triple nf C (lessP r.kind (r.pay i) (r.pay j)) (fun b => ⌜b = decide (i < j)⌝ ∗ C)

theorem tableAt_ops {k : Kind} : tableAt (V := V) k.ops = pure k := by cases k <;> rfl

theorem kind_type_inj {k k' : Kind} (h : k.type = k'.type) : k = k' := by cases k <;> cases k' <;> simp [Kind.type] at h ⊢

theorem isIt_ne {k : Kind} {ty a : Nat} {p : Pay} {F : HProp V} {h : Heap V} (hh : (isIt k ty a p ∗ F) h) : a ≠ 0 := by
  unfold isIt at hh
  exact pts_ne_zero (l := (a, 0)) (v := .sz 5) (R := _) ((show _ ⊢ₛ _ by cancel) _ hh)

section
variable {k k' : Kind} {ty a b : Nat} {p q : Pay} {F : HProp V} {Q : β → HProp V}

theorem ldPay_cps {K : Pay → M V β} (hk : Triple nf (isIt k ty a p ∗ F) (K p) Q) : Triple nf (isIt k ty a p ∗ F) (ldPay a >>= K) Q := by
  unfold ldPay isIt at *
  rw [bind_assoc]
  step
  cases p <;> (simp only [Pay.val, pure_bind] at hk ⊢; refine Triple.pre ?_ hk; cancel)

theorem stPay_cps {K : Unit → M V β} (hk : Triple nf (isIt k ty a q ∗ F) (K ()) Q) : Triple nf (isIt k ty a p ∗ F) (stPay a q >>= K) Q := by
  unfold stPay isIt at *
  step
  refine Triple.pre ?_ hk
  cancel

theorem isIter_cps {K : Bool → M V β} (hk : Triple nf (isIt k' ty a p ∗ F) (K (decide (k = k'))) Q) : Triple nf (isIt k' ty a p ∗ F) (isIter k a >>= K) Q := by
  refine Triple.fact (fun h hh => isIt_ne hh) fun ha => ?_
  unfold isIter
  rw [if_neg ha, bind_assoc]
  unfold isIt at *
  step
  by_cases h1 : k'.cate = k.cate
  · rw [if_neg (by simp [h1]), bind_assoc]
    step
    rw [pure_bind]
    have : (k'.type == k.type) = decide (k = k') := by
      by_cases h2 : k = k'
      · simp [h2]
      · simp only [h2, decide_false, beq_eq_false_iff_ne]
        exact fun h => h2 (kind_type_inj h).symm
    rw [this]
    refine Triple.pre ?_ hk
    cancel
  · rw [if_pos (by simp [h1]), pure_bind]
    have : decide (k = k') = false := by
      simp only [decide_eq_false_iff_not]
      rintro rfl
      exact h1 rfl
    rw [this] at hk
    refine Triple.pre ?_ hk
    cancel

theorem isIter_null_cps {P : HProp V} {K : Bool → M V β} (hk : Triple nf P (K false) Q) : Triple nf P (isIter k 0 >>= K) Q := by
  unfold isIter
  rw [if_pos rfl, pure_bind]
  exact hk

theorem opsOf_cps {K : Kind → M V β} (hk : Triple nf (isIt k ty a p ∗ F) (K k) Q) : Triple nf (isIt k ty a p ∗ F) (opsOf a >>= K) Q := by
  refine Triple.fact (fun h hh => isIt_ne hh) fun ha => ?_
  unfold opsOf
  rw [if_neg ha, bind_assoc]
  unfold isIt at *
  step
  rw [tableAt_ops, pure_bind]
  refine Triple.pre ?_ hk
  cancel

/-- reading the value type of an iterator -/
theorem ldTy_cps {K : Nat → M V β} (hk : Triple nf (isIt k ty a p ∗ F) (K ty) Q) : Triple nf (isIt k ty a p ∗ F) (ldN (a, 4) >>= K) Q := by
  unfold isIt at *
  step
  refine Triple.pre ?_ hk
  cancel

end

/-- the fields of an iterator struct as an array -/
theorem isIt_arr {k : Kind} {ty a : Nat} {p : Pay} :
    isIt (V := V) k ty a p = (blk a 5 ∗ arr a 1 [.num k.cate, .num k.type, .num k.ops, .num ty, p.val]) := by
  unfold isIt
  simp only [arr, sep_emp]

/-- any five slots -/
def rawIt (a : Nat) : HProp V := blk a 5 ∗ ∃ₛ xs, ⌜xs.length = 5⌝ ∗ arr a 1 xs

theorem isIt_raw {k : Kind} {ty a : Nat} {p : Pay} : isIt (V := V) k ty a p ⊢ₛ rawIt a := by
  rw [isIt_arr]
  unfold rawIt
  refine sep_mono (ent_refl _) ?_
  apply ent_ex_right
  refine ent_pure_right ?_ (ent_refl _)
  rfl

theorem rawIt_open {a : Nat} : rawIt (V := V) a ⊢ₛ ∃ₛ x1, ∃ₛ x2, ∃ₛ x3, ∃ₛ x4, ∃ₛ x5, blk a 5 ∗ pts (a, 1) x1 ∗ pts (a, 2) x2 ∗ pts (a, 3) x3 ∗ pts (a, 4) x4 ∗ pts (a, 5) x5 := by
  unfold rawIt
  rw [sep_comm]
  refine ent_ex_left' fun xs => ?_
  rw [sep_assoc]
  refine ent_pure_left fun hl => ?_
  match xs, hl with
  | [x1, x2, x3, x4, x5], _ =>
    apply ent_ex_right x1
    apply ent_ex_right x2
    apply ent_ex_right x3
    apply ent_ex_right x4
    apply ent_ex_right x5
    simp only [arr, sep_emp]
    cancel

theorem rawIt_ne {a : Nat} {F : HProp V} {h : Heap V} (hh : (rawIt a ∗ F) h) : a ≠ 0 := by
  unfold rawIt at hh
  exact pts_ne_zero (l := (a, 0)) (v := .sz 5) (R := _) ((show _ ⊢ₛ _ by cancel) _ hh)

/-- storing an iterator in a struct -/
theorem setIter_cps {k : Kind} {ty a : Nat} {p : Pay} {F : HProp V} {Q : β → HProp V} {K : Unit → M V β} (ht : ty ≠ 0) (hp : p ≠ .node 0)
    (hk : Triple nf (isIt k ty a p ∗ F) (K ()) Q) : Triple nf (rawIt a ∗ F) (setIter a k ty p >>= K) Q := by
  refine Triple.pre (sep_mono rawIt_open (ent_refl _)) ?_
  apply Triple.ex_left'; intro x1
  apply Triple.ex_left'; intro x2
  apply Triple.ex_left'; intro x3
  apply Triple.ex_left'; intro x4
  apply Triple.ex_left'; intro x5
  unfold setIter
  rw [show (ty != 0) = true by simpa using ht]
  have h0 : ∀ n, p = .node n → (n != 0) = true := by
    intro n h
    simp only [bne_iff_ne, ne_eq]
    rintro rfl
    exact hp h
  cases p with
  | node n =>
    simp only [bind_assoc, h0 n rfl, cassert, ↓reduceIte, pure_bind]
    unfold stPay isIt at *
    steps
    refine Triple.pre ?_ hk
    cancel
  | pos b i =>
    simp only [bind_assoc, cassert, ↓reduceIte, pure_bind]
    unfold stPay isIt at *
    steps
    refine Triple.pre ?_ hk
    cancel

end CC.Iter
