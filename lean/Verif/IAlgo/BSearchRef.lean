import Verif.IAlgo.NonModRef
import Verif.IAlgo.BSearch
import Verif.Algo.BSearch
/-!
# `algorithm/c_bsearch.c` on iterator objects does what the programs on positions do
-/
namespace CC.IAlgo
open CC CC.Tac CC.Iter CC.Algo
variable {V α β γ : Type} {Z : Nat → Nat} {S A P F R : HProp V} {r r2 : Src V} {x y i j k n f l it first last : Nat} {o o2 : Out} {B : Nat → Nat → HProp V}

theorem CondOk.vCmp (hr : r.Ok True Z S) {pred : V → V → Bool} {v : Loc} : CondOk S r (fun x => IAlgo.vCmp pred v x) (fun i => Algo.cmp pred v (r.ref i)) := by
  intro x i hi α β K' K c Ψ P R Q h1 hw hS hk
  exact vCmp_at hr hi hw hS h1 hk

theorem boundLoop_ref (hr : r.Ok True Z S) {cond : Addr → M V Bool} {condP : Nat → M V Bool} (hc : CondOk S r cond condP) (hj : i + n ≤ r.len) (hk : k ≤ r.len) :
    RefC (It r f i ∗ It r it k ∗ S) (boundLoop cond f it (n : Nat)) (Algo.boundLoop condP i n) (fun m _ => i ≤ m ∧ m ≤ i + n) (fun m _ => ∃ₛ k, It r f m ∗ It r it k ∗ S) := by
  induction hn : n using Nat.strongRecOn generalizing i k n with
  | _ t ih =>
    subst hn
    intro β γ K' K c Ψ F Q hw hk
    rw [Algo.boundLoop] at hw
    rw [boundLoop]
    by_cases h0 : n > 0
    · rw [if_pos h0] at hw
      rw [if_pos (by omega)]
      simp only [bind_assoc] at hw ⊢
      istep
      refine adv_at (k := i + n / 2) (by cancel) hr (by cancel) (by omega) (by omega) (by omega) (.inl (by omega)) ?_
      refine hc (by omega) (by at_it) hw (by cancel) fun b c1 hw => ?_
      cases b
      · simp only [Bool.false_eq_true, ↓reduceIte] at hw ⊢
        rw [show (n : Int) / 2 = ((n / 2 : Nat) : Int) by omega]
        refine (ih (n / 2) (by omega) (i := i) (k := i + n / 2) (by omega) (by omega) rfl).use hw (by cancel) fun m _ c1 hf hw => ?_
        exact hk _ _ _ (by exact ⟨hf.1, by omega⟩) hw
      · simp only [↓reduceIte, bind_assoc] at hw ⊢
        istep
        istep
        rw [show (n : Int) - ((n : Int) / 2 + 1) = ((n - (n / 2 + 1) : Nat) : Int) by omega]
        refine (ih (n - (n / 2 + 1)) (by omega) (i := i + n / 2 + 1) (k := i + n / 2 + 1) (by omega) (by omega) rfl).use hw (by cancel) fun m _ c1 hf hw => ?_
        exact hk _ _ _ (by exact ⟨by omega, by omega⟩) hw
    · rw [if_neg h0, pure_bind] at hw
      rw [if_neg (by omega), pure_bind]
      refine Triple.pre ?_ (hk _ () _ (by exact ⟨by omega, by omega⟩) hw)
      refine sep_mono (ent_refl _) (sep_mono ?_ (ent_refl _))
      exact ent_ex_right k (ent_refl _)

section
variable (hr : r.Ok True Z S) (hij : i ≤ j) (hj : j ≤ r.len) (h1 : At A r first i) (h2 : At A r last j)
include hr hij hj h1 h2

theorem lowerBound_ref {value : Loc} {comp : V → V → Bool} (hv : value.1 ≠ 0) (hO : OutOk r o A B) (ho : o.isNull = false) :
    RefC (A ∗ S) (IAlgo.lowerBound Z first last value o comp) (Algo.lowerBound r.ref i j value comp) (fun k _ => i ≤ k ∧ k ≤ j) (fun k a => B k a ∗ S) := by
  intro β γ K' K c Ψ F Q hw hk
  have hc := cate_ge r.kind
  refine At.with (x := first) (by at_it) fun hf0 _ => At.with (x := last) (by at_it) fun hl0 _ => ?_
  unfold Algo.lowerBound at hw
  unfold IAlgo.lowerBound
  simp only [hf0, hl0, hv, ho, Bool.false_eq_true, or_self, ↓reduceIte, bind_assoc, pure_bind] at hw ⊢
  istep
  istep
  refine hO.chk (by omega) (by cancel) ?_
  istep
  intro f _
  istep
  intro l _
  istep
  istep
  intro it _
  rw [show (j : Int) - i = ((j - i : Nat) : Int) by omega]
  refine (boundLoop_ref (k := i) hr (CondOk.cmpV hr) (by omega) (by omega)).use hw (by cancel) fun m _ c1 hf hw => ?_
  rw [← sep_assoc, sep_comm (Ex c1), sep_assoc]
  refine Triple.ex_left' fun k => ?_
  refine hO.set (by cancel) (i := m) (by at_it) fun o => ?_
  istep
  istep
  istep
  refine Triple.pre ?_ (hk _ _ _ (by exact ⟨hf.1, by omega⟩) hw)
  cancel

theorem upperBound_ref {value : Loc} {comp : V → V → Bool} (hv : value.1 ≠ 0) (hO : OutOk r o A B) (ho : o.isNull = false) :
    RefC (A ∗ S) (IAlgo.upperBound Z first last value o comp) (Algo.upperBound r.ref i j value comp) (fun k _ => i ≤ k ∧ k ≤ j) (fun k a => B k a ∗ S) := by
  intro β γ K' K c Ψ F Q hw hk
  have hc := cate_ge r.kind
  refine At.with (x := first) (by at_it) fun hf0 _ => At.with (x := last) (by at_it) fun hl0 _ => ?_
  unfold Algo.upperBound at hw
  unfold IAlgo.upperBound
  simp only [hf0, hl0, hv, ho, Bool.false_eq_true, or_self, ↓reduceIte, bind_assoc, pure_bind] at hw ⊢
  istep
  istep
  refine hO.chk (by omega) (by cancel) ?_
  istep
  intro f _
  istep
  intro l _
  istep
  istep
  intro it _
  rw [show (j : Int) - i = ((j - i : Nat) : Int) by omega]
  refine (boundLoop_ref (k := i) hr (CondOk.not (CondOk.vCmp hr)) (by omega) (by omega)).use hw (by cancel) fun m _ c1 hf hw => ?_
  rw [← sep_assoc, sep_comm (Ex c1), sep_assoc]
  refine Triple.ex_left' fun k => ?_
  refine hO.set (by cancel) (i := m) (by at_it) fun o => ?_
  istep
  istep
  istep
  refine Triple.pre ?_ (hk _ _ _ (by exact ⟨hf.1, by omega⟩) hw)
  cancel

theorem binarySearch_ref {value : Loc} {comp : V → V → Bool} (hv : value.1 ≠ 0) :
    RefC (A ∗ S) (IAlgo.binarySearch Z first last value comp) (Algo.binarySearch r.ref i j value comp) (fun a' a => a = a') (fun _ _ => A ∗ S) := by
  intro β γ K' K c Ψ F Q hw hk
  have hc := cate_ge r.kind
  refine At.with (x := first) (by at_it) fun hf0 _ => At.with (x := last) (by at_it) fun hl0 _ => ?_
  unfold Algo.binarySearch at hw
  unfold IAlgo.binarySearch
  simp only [hf0, hl0, hv, or_self, ↓reduceIte, bind_assoc, pure_bind] at hw ⊢
  istep
  istep
  istep
  intro f _
  istep
  intro l _
  refine (lowerBound_ref (A := It r f i ∗ It r l j ∗ A) hr hij hj (by at_it) (by at_it) hv (OutOk.loc (A := It r l j ∗ A)) rfl).use hw (by cancel) fun m f' c1 hf hw => ?_
  rw [← sep_assoc, sep_comm (Ex c1), sep_assoc, sep_assoc, sep_assoc]
  refine Triple.pure_left fun hfe => ?_
  subst hfe
  istep
  by_cases hm : m = j
  · subst hm
    simp only [ne_eq, not_true_eq_false, decide_false, Bool.false_eq_true, ↓reduceIte, pure_bind] at hw ⊢
    istep
    istep
    refine Triple.pre ?_ (hk _ _ _ rfl hw)
    cancel
  · simp only [ne_eq, hm, not_false_eq_true, decide_true, ↓reduceIte, pure_bind, bind_assoc] at hw ⊢
    istep
    intro b c1 hw
    istep
    istep
    refine Triple.pre ?_ (hk _ _ _ rfl hw)
    cancel

theorem equalRange_ref {value : Loc} {comp : V → V → Bool} {B2 : Nat → Nat → Nat → Nat → HProp V} (hv : value.1 ≠ 0) (hO : OutOk r o A B) (ho : o.isNull = false)
    (hO2 : ∀ k q, OutOk r o2 (B k q) (B2 k q)) (ho2 : o2.isNull = false) :
    RefC (A ∗ S) (IAlgo.equalRange Z first last value o o2 comp) (Algo.equalRange r.ref i j value comp) (fun k _ => i ≤ k.1 ∧ k.1 ≤ j ∧ i ≤ k.2 ∧ k.2 ≤ j)
      (fun k a => B2 k.1 a.1 k.2 a.2 ∗ S) := by
  intro β γ K' K c Ψ F Q hw hk
  have hc := cate_ge r.kind
  refine At.with (x := first) (by at_it) fun hf0 _ => At.with (x := last) (by at_it) fun hl0 _ => ?_
  unfold Algo.equalRange at hw
  unfold IAlgo.equalRange
  simp only [hf0, hl0, hv, ho, ho2, Bool.false_eq_true, or_self, ↓reduceIte, bind_assoc, pure_bind] at hw ⊢
  istep
  istep
  istep
  intro f _
  istep
  intro l _
  refine (lowerBound_ref (A := A ∗ It r f i ∗ It r l j) hr hij hj (by at_it) (by at_it) hv (hO.frame (G := It r f i ∗ It r l j)) ho).use hw (by cancel) fun m q c1 hf hw => ?_
  refine (upperBound_ref (A := B m q ∗ It r f i ∗ It r l j) hr hij hj (by at_it) (by at_it) hv ((hO2 m q).frame (G := It r f i ∗ It r l j)) ho2).use hw (by cancel) fun m2 q2 c1 hf2 hw => ?_
  istep
  istep
  refine Triple.pre ?_ (hk _ _ _ (by exact ⟨hf.1, hf.2, hf2.1, hf2.2⟩) hw)
  cancel
end

end CC.IAlgo
