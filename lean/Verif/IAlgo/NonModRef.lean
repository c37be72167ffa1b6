import Verif.IAlgo.Tac
import Verif.IAlgo.NonMod
import Verif.Algo.NonMod
/-!
# `algorithm/c_non_modifying.c` on iterator objects does what the programs on positions do
-/
namespace CC.IAlgo
open CC CC.Tac CC.Iter CC.Algo
variable {V α β γ : Type} {Z : Nat → Nat} {S A P F R : HProp V} {r r2 : Src V} {x y i j k n f l first last : Nat} {o : Out} {B : Nat → Nat → HProp V}

/-- a condition on an iterator is a condition on its position -/
def CondOk (S : HProp V) (r : Src V) (cond : Addr → M V Bool) (condP : Nat → M V Bool) : Prop :=
  ∀ {x i : Nat}, i < r.len → ∀ {α β : Type} {K' : Bool → M V α} {K : Bool → M V β} {c : Heap V} {Ψ : α → Heap V → Prop} {P R : HProp V} {Q : β → HProp V},
    At P r x i → Wp (condP i >>= K') c Ψ → (P ⊢ₛ S ∗ Ex c ∗ R) → (∀ b c1, Wp (K' b) c1 Ψ → Triple True (S ∗ Ex c1 ∗ R) (K b) Q) → Triple True P (cond x >>= K) Q

theorem CondOk.test (hr : r.Ok True Z S) {pred : V → Bool} : CondOk S r (testAt pred) (fun i => Algo.test pred (r.ref i)) := by
  intro x i hi α β K' K c Ψ P R Q h1 hw hS hk
  exact testAt_at hr hi hw hS h1 hk
theorem CondOk.cmpV (hr : r.Ok True Z S) {pred : V → V → Bool} {v : Loc} : CondOk S r (fun x => IAlgo.cmpV pred x v) (fun i => Algo.cmp pred (r.ref i) v) := by
  intro x i hi α β K' K c Ψ P R Q h1 hw hS hk
  exact cmpV_at hr hi hw hS h1 hk
theorem CondOk.equalV (hr : r.Ok True Z S) {E : Nat → V → V → Bool} {v : Loc} : CondOk S r (fun x => IAlgo.equalV E x v) (fun i => Algo.cmp (E r.ty) (r.ref i) v) := by
  intro x i hi α β K' K c Ψ P R Q h1 hw hS hk
  exact equalV_at hr hi hw hS h1 hk
theorem CondOk.not {cond : Addr → M V Bool} {condP : Nat → M V Bool} (h : CondOk S r cond condP) : CondOk S r (fun x => notM (cond x)) (fun i => do pure (!(← condP i))) := by
  intro x i hi α β K' K c Ψ P R Q h1 hw hS hk
  unfold notM
  simp only [bind_assoc, pure_bind] at hw ⊢
  exact h hi h1 hw hS fun b c1 hw1 => hk (!b) c1 hw1

theorem scan_ref (hr : r.Ok True Z S) {cond : Addr → M V Bool} {condP : Nat → M V Bool} (hc : CondOk S r cond condP) (hij : i ≤ j) (hj : j ≤ r.len) :
    RefC (It r f i ∗ It r l j ∗ S) (scan cond f l) (Algo.scan condP i j) (fun k _ => i ≤ k ∧ k ≤ j) (fun k _ => It r f k ∗ It r l j ∗ S) := by
  induction hn : j - i generalizing i with
  | zero =>
    obtain rfl : i = j := by omega
    intro β γ K' K c Ψ F Q hw hk
    rw [Algo.scan, if_neg (by simp), pure_bind] at hw
    rw [scan, bind_assoc]
    istep
    simp only [ne_eq, not_true_eq_false, decide_false, Bool.false_eq_true, ↓reduceIte, pure_bind]
    exact hk _ _ _ (by exact ⟨by omega, by omega⟩) hw
  | succ n ih =>
    intro β γ K' K c Ψ F Q hw hk
    have hne : i ≠ j := by omega
    rw [Algo.scan, if_pos hne] at hw
    rw [scan]
    simp only [bind_assoc] at hw ⊢
    istep
    simp only [ne_eq, hne, not_false_eq_true, decide_true, ↓reduceIte, bind_assoc]
    refine hc (by omega) (by at_it) hw (by cancel) fun b c1 hw => ?_
    cases b
    · simp only [Bool.false_eq_true, ↓reduceIte, pure_bind] at hw ⊢
      refine Triple.pre ?_ (hk _ _ _ (by exact ⟨by omega, by omega⟩) hw)
      cancel
    · simp only [↓reduceIte, bind_assoc] at hw ⊢
      istep
      refine (ih (i := i + 1) (by omega) (by omega)).use hw (by cancel) fun k _ c1 hf hw => ?_
      exact hk _ _ _ (by exact ⟨by omega, hf.2⟩) hw


theorem dne (a b : Nat) : decide (a ≠ b) = (a != b) := by rw [decide_not]; rfl
theorem cate_ge (k : Kind) : 2 ≤ k.cate := by cases k <;> decide

section
variable (hr : r.Ok True Z S) (hij : i ≤ j) (hj : j ≤ r.len) (h1 : At A r first i) (h2 : At A r last j)
include hr hij hj h1 h2

theorem allOf_ref {pred : V → Bool} : RefC (A ∗ S) (IAlgo.allOf first last pred) (Algo.allOf r.ref i j pred) (fun a' a => a = a') (fun _ _ => A ∗ S) := by
  intro β γ K' K c Ψ F Q hw hk
  have hc := cate_ge r.kind
  refine At.with (x := first) (by at_it) fun hf0 _ => At.with (x := last) (by at_it) fun hl0 _ => ?_
  unfold Algo.allOf at hw
  unfold IAlgo.allOf
  simp only [hf0, hl0, or_self, ↓reduceIte, bind_assoc, pure_bind] at hw ⊢
  istep
  istep
  istep
  intro f _
  istep
  intro l _
  refine (scan_ref hr (CondOk.test hr) hij hj).use hw (by cancel) fun k _ c1 hf hw => ?_
  istep
  istep
  istep
  refine Triple.pre ?_ (hk _ _ _ ?_ hw)
  · cancel
  · rfl

theorem anyOf_ref {pred : V → Bool} : RefC (A ∗ S) (IAlgo.anyOf first last pred) (Algo.anyOf r.ref i j pred) (fun a' a => a = a') (fun _ _ => A ∗ S) := by
  intro β γ K' K c Ψ F Q hw hk
  have hc := cate_ge r.kind
  refine At.with (x := first) (by at_it) fun hf0 _ => At.with (x := last) (by at_it) fun hl0 _ => ?_
  unfold Algo.anyOf at hw
  unfold IAlgo.anyOf
  simp only [hf0, hl0, or_self, ↓reduceIte, bind_assoc, pure_bind] at hw ⊢
  istep
  istep
  istep
  intro f _
  istep
  intro l _
  refine (scan_ref hr (CondOk.not (CondOk.test hr)) hij hj).use hw (by cancel) fun k _ c1 hf hw => ?_
  istep
  istep
  istep
  refine Triple.pre ?_ (hk _ _ _ ?_ hw)
  · cancel
  · exact dne _ _

theorem noneOf_ref {pred : V → Bool} : RefC (A ∗ S) (IAlgo.noneOf first last pred) (Algo.noneOf r.ref i j pred) (fun a' a => a = a') (fun _ _ => A ∗ S) := by
  intro β γ K' K c Ψ F Q hw hk
  have hc := cate_ge r.kind
  refine At.with (x := first) (by at_it) fun hf0 _ => At.with (x := last) (by at_it) fun hl0 _ => ?_
  unfold Algo.noneOf at hw
  unfold IAlgo.noneOf
  simp only [hf0, hl0, or_self, ↓reduceIte, bind_assoc, pure_bind] at hw ⊢
  istep
  istep
  istep
  intro f _
  istep
  intro l _
  refine (scan_ref hr (CondOk.not (CondOk.test hr)) hij hj).use hw (by cancel) fun k _ c1 hf hw => ?_
  istep
  istep
  istep
  refine Triple.pre ?_ (hk _ _ _ ?_ hw)
  · cancel
  · rfl
end

theorem countLoop_ref (hr : r.Ok True Z S) {cond : Addr → M V Bool} {condP : Nat → M V Bool} (hc : CondOk S r cond condP) (hij : i ≤ j) (hj : j ≤ r.len) :
    RefC (It r f i ∗ It r l j ∗ S) (countLoop cond f l n) (Algo.countLoop condP i j n) (fun k k' => k' = k) (fun _ _ => It r f j ∗ It r l j ∗ S) := by
  induction hn : j - i generalizing i n with
  | zero =>
    obtain rfl : i = j := by omega
    intro β γ K' K c Ψ F Q hw hk
    rw [Algo.countLoop, if_neg (by simp), pure_bind] at hw
    rw [countLoop, bind_assoc]
    istep
    simp only [ne_eq, not_true_eq_false, decide_false, Bool.false_eq_true, ↓reduceIte, pure_bind]
    exact hk _ _ _ rfl hw
  | succ m ih =>
    intro β γ K' K c Ψ F Q hw hk
    have hne : i ≠ j := by omega
    rw [Algo.countLoop, if_pos hne] at hw
    rw [countLoop]
    simp only [bind_assoc] at hw ⊢
    istep
    simp only [ne_eq, hne, not_false_eq_true, decide_true, ↓reduceIte, bind_assoc]
    refine hc (by omega) (by at_it) hw (by cancel) fun b c1 hw => ?_
    istep
    cases b
    · simp only [Bool.false_eq_true, ↓reduceIte] at hw ⊢
      exact (ih (i := i + 1) (by omega) (by omega)).use hw (by cancel) hk
    · simp only [↓reduceIte] at hw ⊢
      exact (ih (i := i + 1) (by omega) (by omega)).use hw (by cancel) hk

theorem forEachLoop_ref (hr : r.Ok True Z S) {op : Loc → M V Unit} (hc : ∀ l, Vis (op l)) (hij : i ≤ j) (hj : j ≤ r.len) :
    RefC (It r f i ∗ It r l j ∗ S) (forEachLoop op f l n) (Algo.forEachLoop r.ref op i j n) (fun k k' => k' = k) (fun _ _ => It r f j ∗ It r l j ∗ S) := by
  induction hn : j - i generalizing i n with
  | zero =>
    obtain rfl : i = j := by omega
    intro β γ K' K c Ψ F Q hw hk
    rw [Algo.forEachLoop, if_neg (by simp), pure_bind] at hw
    rw [forEachLoop, bind_assoc]
    istep
    simp only [ne_eq, not_true_eq_false, decide_false, Bool.false_eq_true, ↓reduceIte, pure_bind]
    exact hk _ _ _ rfl hw
  | succ m ih =>
    intro β γ K' K c Ψ F Q hw hk
    have hne : i ≠ j := by omega
    rw [Algo.forEachLoop, if_pos hne] at hw
    rw [forEachLoop]
    simp only [bind_assoc] at hw ⊢
    istep
    simp only [ne_eq, hne, not_false_eq_true, decide_true, ↓reduceIte, bind_assoc]
    istep
    refine (hc (r.ref i)).use hw (F := It r f i ∗ It r l j ∗ S ∗ F) (by cancel) fun _ c1 hw => ?_
    istep
    exact (ih (i := i + 1) (by omega) (by omega)).use hw (by cancel) hk

theorem forEachNLoop_ref (hr : r.Ok True Z S) {op : Loc → M V Unit} (hc : ∀ l, Vis (op l)) (hj : i + n ≤ r.len) :
    RefC (It r f i ∗ S) (forEachNLoop op f n) (Algo.forEachN r.ref i n op) (fun k _ => k = i + n) (fun _ _ => It r f (i + n) ∗ S) := by
  induction n generalizing i with
  | zero =>
    intro β γ K' K c Ψ F Q hw hk
    rw [Algo.forEachN, pure_bind] at hw
    rw [forEachNLoop, pure_bind]
    exact hk _ _ _ rfl hw
  | succ m ih =>
    intro β γ K' K c Ψ F Q hw hk
    rw [Algo.forEachN] at hw
    rw [forEachNLoop]
    simp only [bind_assoc] at hw ⊢
    istep
    refine (hc (r.ref i)).use hw (F := It r f i ∗ S ∗ F) (by cancel) fun _ c1 hw => ?_
    istep
    refine (ih (i := i + 1) (by omega)).use hw (by cancel) fun k _ c1 hf hw => ?_
    rw [show i + 1 + m = i + (m + 1) by omega] at hf ⊢
    exact hk _ _ _ hf hw

section
variable (hr : r.Ok True Z S) (hij : i ≤ j) (hj : j ≤ r.len) (h1 : At A r first i) (h2 : At A r last j)
include hr hij hj h1 h2

theorem count_ref {E : Nat → V → V → Bool} {value : Loc} (hv : value.1 ≠ 0) : RefC (A ∗ S) (IAlgo.count E first last value) (Algo.count r.ref i j value (E r.ty)) (fun a' a => a = a') (fun _ _ => A ∗ S) := by
  intro β γ K' K c Ψ F Q hw hk
  have hc := cate_ge r.kind
  refine At.with (x := first) (by at_it) fun hf0 _ => At.with (x := last) (by at_it) fun hl0 _ => ?_
  unfold Algo.count at hw
  unfold IAlgo.count
  simp only [hf0, hl0, hv, or_self, ↓reduceIte, bind_assoc, pure_bind] at hw ⊢
  istep
  istep
  istep
  intro f _
  istep
  intro l _
  refine (countLoop_ref hr (CondOk.equalV hr) hij hj).use hw (by cancel) fun k _ c1 hf hw => ?_
  skip
  istep
  istep
  refine Triple.pre ?_ (hk _ _ _ ?_ hw)
  · cancel
  · exact hf

theorem countIf_ref {pred : V → Bool} : RefC (A ∗ S) (IAlgo.countIf first last pred) (Algo.countIf r.ref i j pred) (fun a' a => a = a') (fun _ _ => A ∗ S) := by
  intro β γ K' K c Ψ F Q hw hk
  have hc := cate_ge r.kind
  refine At.with (x := first) (by at_it) fun hf0 _ => At.with (x := last) (by at_it) fun hl0 _ => ?_
  unfold Algo.countIf at hw
  unfold IAlgo.countIf
  simp only [hf0, hl0, or_self, ↓reduceIte, bind_assoc, pure_bind] at hw ⊢
  istep
  istep
  istep
  intro f _
  istep
  intro l _
  refine (countLoop_ref hr (CondOk.test hr) hij hj).use hw (by cancel) fun k _ c1 hf hw => ?_
  skip
  istep
  istep
  refine Triple.pre ?_ (hk _ _ _ ?_ hw)
  · cancel
  · exact hf

theorem forEach_ref {op : Loc → M V Unit} (ho : ∀ l, Vis (op l)) : RefC (A ∗ S) (IAlgo.forEach first last op) (Algo.forEach r.ref i j op) (fun a' a => a = a') (fun _ _ => A ∗ S) := by
  intro β γ K' K c Ψ F Q hw hk
  have hc := cate_ge r.kind
  refine At.with (x := first) (by at_it) fun hf0 _ => At.with (x := last) (by at_it) fun hl0 _ => ?_
  unfold Algo.forEach at hw
  unfold IAlgo.forEach
  simp only [hf0, hl0, or_self, ↓reduceIte, bind_assoc, pure_bind] at hw ⊢
  istep
  istep
  istep
  intro f _
  istep
  intro l _
  refine (forEachLoop_ref hr ho hij hj).use hw (by cancel) fun k _ c1 hf hw => ?_
  skip
  istep
  istep
  refine Triple.pre ?_ (hk _ _ _ ?_ hw)
  · cancel
  · exact hf
end

/-! ## results in iterators -/

/-- the target of a `c_iterator_t**` may be checked -/
def OutChk (r : Src V) (o : Out) (A : HProp V) : Prop := ∃ B, OutOk r o A B
theorem OutOk.chk' (h : OutOk r o A B) : OutChk r o A := ⟨B, h⟩
theorem OutChk.chk (h : OutChk r o A) {c : Nat} (hc : c ≤ r.kind.cate) {P R : HProp V} (he : P ⊢ₛ A ∗ R) {K : Unit → M V γ} {Q : γ → HProp V} (hk : Triple True P (K ()) Q) :
    Triple True P (o.atLeast c >>= K) Q := by
  obtain ⟨B, h⟩ := h
  exact h.chk hc he hk

theorem copyMove_at0 (h1 : At P r x i) (hr : r.Ok True Z S) (hS : P ⊢ₛ S ∗ R) {n : Int} (h0 : 0 ≤ (i : Int) + n) (hl : (i : Int) + n ≤ r.len) (hi : i ≤ r.len) (h2 : 0 ≤ n ∨ r.kind.bidir)
    {Q : β → HProp V} {K : Nat → M V β} (hk : ∀ q, q ≠ 0 → Triple True (It r q ((i : Int) + n).toNat ∗ S ∗ R) (K q) Q) : Triple True P (copyMove 0 x n >>= K) Q := by
  unfold copyMove
  simp only [bind_assoc, pure_bind]
  refine set_loc0 h1 fun q hq => ?_
  refine Triple.pre (sep_mono (ent_refl _) hS) ?_
  exact advance_at hr (ent_refl _) hi h0 hl h2 (hk q hq)

section
variable (hr : r.Ok True Z S) (hij : i ≤ j) (hj : j ≤ r.len) (h1 : At A r first i) (h2 : At A r last j)
include hr hij hj h1 h2

theorem findBy_ref {value : Loc} {pred : V → V → Bool} (hv : value.1 ≠ 0) (hO : OutOk r o A B) : RefC (A ∗ S) (IAlgo.findBy first last o value pred) (Algo.findBy r.ref i j value pred)
    (fun a' a => a.1 = a'.1 ∧ i ≤ a'.2 ∧ a'.2 ≤ j ∧ (a'.1 = true → a'.2 < j)) (fun a' a => B a'.2 a.2 ∗ S) := by
  intro β γ K' K c Ψ F Q hw hk
  have hc := cate_ge r.kind
  refine At.with (x := first) (by at_it) fun hf0 _ => At.with (x := last) (by at_it) fun hl0 _ => ?_
  unfold Algo.findBy at hw
  unfold IAlgo.findBy
  simp only [hf0, hl0, hv, or_self, ↓reduceIte, bind_assoc, pure_bind] at hw ⊢
  istep
  istep
  refine hO.chk (by omega) (by cancel) ?_
  istep
  intro f _
  istep
  intro l _
  refine (scan_ref hr (CondOk.not (CondOk.cmpV hr)) hij hj).use hw (by cancel) fun k _ c1 hf hw => ?_
  istep
  refine hO.set (by cancel) (by at_it) fun o => ?_
  istep
  istep
  refine Triple.pre ?_ (hk _ _ _ ⟨dne _ _, hf.1, hf.2, fun h => ?_⟩ hw)
  · cancel
  · have : k ≠ j := by simpa using h
    omega

theorem findIf_ref {pred : V → Bool} (hO : OutOk r o A B) : RefC (A ∗ S) (IAlgo.findIf first last o pred) (Algo.findIf r.ref i j pred)
    (fun a' a => a.1 = a'.1 ∧ i ≤ a'.2 ∧ a'.2 ≤ j ∧ (a'.1 = true → a'.2 < j)) (fun a' a => B a'.2 a.2 ∗ S) := by
  intro β γ K' K c Ψ F Q hw hk
  have hc := cate_ge r.kind
  refine At.with (x := first) (by at_it) fun hf0 _ => At.with (x := last) (by at_it) fun hl0 _ => ?_
  unfold Algo.findIf at hw
  unfold IAlgo.findIf
  simp only [hf0, hl0, or_self, ↓reduceIte, bind_assoc, pure_bind] at hw ⊢
  istep
  istep
  refine hO.chk (by omega) (by cancel) ?_
  istep
  intro f _
  istep
  intro l _
  refine (scan_ref hr (CondOk.not (CondOk.test hr)) hij hj).use hw (by cancel) fun k _ c1 hf hw => ?_
  istep
  refine hO.set (by cancel) (by at_it) fun o => ?_
  istep
  istep
  refine Triple.pre ?_ (hk _ _ _ ⟨dne _ _, hf.1, hf.2, fun h => ?_⟩ hw)
  · cancel
  · have : k ≠ j := by simpa using h
    omega

theorem findIfNot_ref {pred : V → Bool} (hO : OutOk r o A B) : RefC (A ∗ S) (IAlgo.findIfNot first last o pred) (Algo.findIfNot r.ref i j pred)
    (fun a' a => a.1 = a'.1 ∧ i ≤ a'.2 ∧ a'.2 ≤ j ∧ (a'.1 = true → a'.2 < j)) (fun a' a => B a'.2 a.2 ∗ S) := by
  intro β γ K' K c Ψ F Q hw hk
  have hc := cate_ge r.kind
  refine At.with (x := first) (by at_it) fun hf0 _ => At.with (x := last) (by at_it) fun hl0 _ => ?_
  unfold Algo.findIfNot at hw
  unfold IAlgo.findIfNot
  simp only [hf0, hl0, or_self, ↓reduceIte, bind_assoc, pure_bind] at hw ⊢
  istep
  istep
  refine hO.chk (by omega) (by cancel) ?_
  istep
  intro f _
  istep
  intro l _
  refine (scan_ref hr (CondOk.test hr) hij hj).use hw (by cancel) fun k _ c1 hf hw => ?_
  istep
  refine hO.set (by cancel) (by at_it) fun o => ?_
  istep
  istep
  refine Triple.pre ?_ (hk _ _ _ ⟨dne _ _, hf.1, hf.2, fun h => ?_⟩ hw)
  · cancel
  · have : k ≠ j := by simpa using h
    omega
end

theorem forEachN_ref (hr : r.Ok True Z S) (hn : i + n ≤ r.len) (h1 : At A r first i) {op : Loc → M V Unit} (ho : ∀ l, Vis (op l)) (hO : OutOk r o A B) :
    RefC (A ∗ S) (IAlgo.forEachN first n o op) (Algo.forEachN r.ref i n op) (fun a' _ => a' = i + n) (fun a' a => B a' a ∗ S) := by
  intro β γ K' K c Ψ F Q hw hk
  have hc := cate_ge r.kind
  refine At.with (x := first) (by at_it) fun hf0 _ => ?_
  unfold IAlgo.forEachN
  simp only [hf0, ↓reduceIte, bind_assoc]
  istep
  refine hO.chk (by omega) (by cancel) ?_
  istep
  intro f _
  refine (forEachNLoop_ref hr ho hn).use hw (by cancel) fun k _ c1 hf hw => ?_
  subst hf
  refine hO.set (by cancel) (by at_it) fun o => ?_
  istep
  simp only [pure_bind]
  refine Triple.pre ?_ (hk _ _ _ (by rfl) hw)
  cancel

/-! ## two ranges -/

section
variable {a b first2 last2 sf sl sFirst sLast it s fd : Nat} {o2 : Out}

theorem mismatchLoop_ref (hr : r.Ok True Z S) (hr2 : r2.Ok True Z S) {pred : V → V → Bool} (hij : i ≤ j) (hj : j ≤ r.len) (ha : a + (j - i) ≤ r2.len) :
    RefC (It r f i ∗ It r l j ∗ It r2 s a ∗ S) (mismatchLoop pred f l s) (Algo.mismatchLoop r.ref r2.ref pred i j a) (fun p _ => i ≤ p.1 ∧ p.1 ≤ j ∧ p.2 = a + (p.1 - i))
      (fun p _ => It r f p.1 ∗ It r l j ∗ It r2 s p.2 ∗ S) := by
  induction hn : j - i generalizing i a with
  | zero =>
    obtain rfl : i = j := by omega
    intro β γ K' K c Ψ F Q hw hk
    rw [Algo.mismatchLoop, if_neg (by simp), pure_bind] at hw
    rw [mismatchLoop, bind_assoc]
    istep
    simp only [ne_eq, not_true_eq_false, decide_false, Bool.false_eq_true, ↓reduceIte, pure_bind]
    exact hk _ _ _ (by exact ⟨by omega, by omega, by simp⟩) hw
  | succ n ih =>
    intro β γ K' K c Ψ F Q hw hk
    have hne : i ≠ j := by omega
    rw [Algo.mismatchLoop, if_pos hne] at hw
    rw [mismatchLoop]
    simp only [bind_assoc] at hw ⊢
    istep
    simp only [ne_eq, hne, not_false_eq_true, decide_true, ↓reduceIte, bind_assoc]
    istep
    intro b c1 hw
    cases b
    · simp only [Bool.false_eq_true, ↓reduceIte, pure_bind] at hw ⊢
      refine Triple.pre ?_ (hk _ _ _ (by exact ⟨by dsimp only; omega, by dsimp only; omega, by dsimp only; omega⟩) hw)
      cancel
    · simp only [↓reduceIte, bind_assoc] at hw ⊢
      istep
      istep
      refine (ih (i := i + 1) (a := a + 1) (by omega) (by omega) (by omega)).use hw (by cancel) fun k _ c1 hf hw => ?_
      exact hk _ _ _ (by exact ⟨by omega, by omega, by omega⟩) hw

/-- the second result is stored after the first one -/
theorem mismatch_ref (hr : r.Ok True Z S) (hr2 : r2.Ok True Z S) (hij : i ≤ j) (hj : j ≤ r.len) (ha : a + (j - i) ≤ r2.len) (h1 : At A r first i) (h2 : At A r last j) (h3 : At A r2 first2 a)
    {pred : V → V → Bool} {B2 : Nat → Nat → Nat → Nat → HProp V} (hO : OutOk r o A B) (hC2 : OutChk r2 o2 A) (hO2 : ∀ k q, OutOk r2 o2 (B k q) (B2 k q)) :
    RefC (A ∗ S) (IAlgo.mismatch first last first2 o o2 pred) (Algo.mismatch r.ref i j r2.ref a pred)
      (fun a' b => b.1 = a'.1 ∧ i ≤ a'.2.1 ∧ a'.2.1 ≤ j ∧ a'.2.2 = a + (a'.2.1 - i)) (fun a' b => B2 a'.2.1 b.2.1 a'.2.2 b.2.2 ∗ S) := by
  intro β γ K' K c Ψ F Q hw hk
  have hc := cate_ge r.kind
  have hc2 := cate_ge r2.kind
  refine At.with (x := first) (by at_it) fun hf0 _ => At.with (x := last) (by at_it) fun hl0 _ => At.with (x := first2) (by at_it) fun hs0 _ => ?_
  unfold Algo.mismatch at hw
  unfold IAlgo.mismatch
  simp only [hf0, hl0, hs0, or_self, ↓reduceIte, bind_assoc, pure_bind] at hw ⊢
  istep
  istep
  istep
  refine hO.chk (by omega) (by cancel) ?_
  refine hC2.chk (by omega) (by cancel) ?_
  istep
  intro f _
  istep
  intro l _
  istep
  intro s _
  refine (mismatchLoop_ref hr hr2 hij hj ha).use hw (by cancel) fun k _ c1 hf hw => ?_
  istep
  istep
  intro m1 _
  istep
  intro m2 _
  refine hO.set (by cancel) (by at_it) fun q => ?_
  refine (hO2 _ _).set (by cancel) (by at_it) fun q2 => ?_
  istep
  istep
  istep
  istep
  istep
  refine Triple.pre ?_ (hk _ _ _ (by exact ⟨dne _ _, hf⟩) hw)
  cancel

theorem equal_ref (hr : r.Ok True Z S) (hr2 : r2.Ok True Z S) (hij : i ≤ j) (hj : j ≤ r.len) (ha : a + (j - i) ≤ r2.len) (h1 : At A r first i) (h2 : At A r last j) (h3 : At A r2 first2 a)
    {pred : V → V → Bool} : RefC (A ∗ S) (IAlgo.equal first last first2 pred) (Algo.equal r.ref i j r2.ref a pred) (fun a' a => a = a') (fun _ _ => A ∗ S) := by
  intro β γ K' K c Ψ F Q hw hk
  have hc := cate_ge r.kind
  have hc2 := cate_ge r2.kind
  refine At.with (x := first) (by at_it) fun hf0 _ => At.with (x := last) (by at_it) fun hl0 _ => At.with (x := first2) (by at_it) fun hs0 _ => ?_
  unfold Algo.equal at hw
  unfold IAlgo.equal
  simp only [hf0, hl0, hs0, or_self, ↓reduceIte, bind_assoc, pure_bind] at hw ⊢
  istep
  istep
  istep
  istep
  intro f _
  istep
  intro l _
  istep
  intro s _
  refine (mismatchLoop_ref hr hr2 hij hj ha).use hw (by cancel) fun k _ c1 hf hw => ?_
  istep
  istep
  istep
  istep
  refine Triple.pre ?_ (hk _ _ _ (by rfl) hw)
  cancel

theorem amongLoop_ref (hr : r.Ok True Z S) (hr2 : r2.Ok True Z S) {pred : V → V → Bool} (hi : i < r.len) (hab : a ≤ b) (hb : b ≤ r2.len) :
    RefC (It r f i ∗ It r2 sf a ∗ It r2 sl b ∗ S) (amongLoop pred f sf sl) (Algo.amongLoop (r.ref i) r2.ref pred a b) (fun q q' => q' = q)
      (fun _ _ => ∃ₛ m, It r2 sf m ∗ It r f i ∗ It r2 sl b ∗ S) := by
  induction hn : b - a generalizing a with
  | zero =>
    obtain rfl : a = b := by omega
    intro β γ K' K c Ψ F Q hw hk
    rw [Algo.amongLoop, if_neg (by simp), pure_bind] at hw
    rw [amongLoop, bind_assoc]
    istep
    simp only [ne_eq, not_true_eq_false, decide_false, Bool.false_eq_true, ↓reduceIte, pure_bind]
    refine Triple.pre ?_ (hk _ _ _ (by rfl) hw)
    xexists a
    cancel
  | succ n ih =>
    intro β γ K' K c Ψ F Q hw hk
    have hne : a ≠ b := by omega
    rw [Algo.amongLoop, if_pos hne] at hw
    rw [amongLoop]
    simp only [bind_assoc] at hw ⊢
    istep
    simp only [ne_eq, hne, not_false_eq_true, decide_true, ↓reduceIte, bind_assoc]
    istep
    intro b' c1 hw
    cases b'
    · simp only [Bool.false_eq_true, ↓reduceIte, bind_assoc] at hw ⊢
      istep
      refine (ih (a := a + 1) (by omega) (by omega)).use hw (by cancel) fun k _ c1 hf hw => ?_
      exact hk _ _ _ hf hw
    · simp only [↓reduceIte, pure_bind] at hw ⊢
      refine Triple.pre ?_ (hk _ _ _ (by rfl) hw)
      xexists a
      cancel

theorem findFirstOfLoop_ref (hr : r.Ok True Z S) (hr2 : r2.Ok True Z S) {pred : V → V → Bool} (hij : i ≤ j) (hj : j ≤ r.len) (hab : a ≤ b) (hb : b ≤ r2.len) (h3 : At A r2 sFirst a) {m : Nat} :
    RefC (It r f i ∗ It r l j ∗ It r2 sf m ∗ It r2 sl b ∗ A ∗ S) (findFirstOfLoop pred f l sf sl sFirst) (Algo.findFirstOfLoop r.ref r2.ref pred i j a b)
      (fun q q' => q' = q.1 ∧ i ≤ q.2 ∧ q.2 ≤ j ∧ (q.1 = true → q.2 < j)) (fun q _ => ∃ₛ m, It r2 sf m ∗ It r f q.2 ∗ It r l j ∗ It r2 sl b ∗ A ∗ S) := by
  induction hn : j - i generalizing i m with
  | zero =>
    obtain rfl : i = j := by omega
    intro β γ K' K c Ψ F Q hw hk
    rw [Algo.findFirstOfLoop, if_neg (by simp), pure_bind] at hw
    rw [findFirstOfLoop, bind_assoc]
    istep
    simp only [ne_eq, not_true_eq_false, decide_false, Bool.false_eq_true, ↓reduceIte, pure_bind]
    refine Triple.pre ?_ (hk _ _ _ (by exact ⟨rfl, by simp, by simp, by simp⟩) hw)
    xexists m
    cancel
  | succ n ih =>
    intro β γ K' K c Ψ F Q hw hk
    have hne : i ≠ j := by omega
    rw [Algo.findFirstOfLoop, if_pos hne] at hw
    rw [findFirstOfLoop]
    simp only [bind_assoc] at hw ⊢
    istep
    simp only [ne_eq, hne, not_false_eq_true, decide_true, ↓reduceIte, bind_assoc]
    istep
    refine (amongLoop_ref hr hr2 (by omega) hab hb).use hw (by cancel) fun q q' c1 hf hw => ?_
    subst hf
    xintro m'
    cases q'
    · simp only [Bool.false_eq_true, ↓reduceIte, bind_assoc] at hw ⊢
      istep
      refine (ih (i := i + 1) (m := m') (by omega) (by omega)).use hw (by cancel) fun k _ c1 hf hw => ?_
      exact hk _ _ _ (by exact ⟨hf.1, by omega, hf.2.2⟩) hw
    · simp only [↓reduceIte, pure_bind] at hw ⊢
      refine Triple.pre ?_ (hk _ _ _ (by exact ⟨rfl, by simp, by dsimp only; omega, fun _ => by dsimp only; omega⟩) hw)
      xexists m'
      cancel

theorem findFirstOf_ref (hr : r.Ok True Z S) (hr2 : r2.Ok True Z S) (hij : i ≤ j) (hj : j ≤ r.len) (hab : a ≤ b) (hb : b ≤ r2.len) (h1 : At A r first i) (h2 : At A r last j)
    (h3 : At A r2 sFirst a) (h4 : At A r2 sLast b) {pred : V → V → Bool} (hO : OutOk r o A B) :
    RefC (A ∗ S) (IAlgo.findFirstOf first last sFirst sLast o pred) (Algo.findFirstOf r.ref i j r2.ref a b pred)
      (fun a' q => q.1 = a'.1 ∧ i ≤ a'.2 ∧ a'.2 ≤ j ∧ (a'.1 = true → a'.2 < j)) (fun a' q => B a'.2 q.2 ∗ S) := by
  intro β γ K' K c Ψ F Q hw hk
  have hc := cate_ge r.kind
  have hc2 := cate_ge r2.kind
  refine At.with (x := first) (by at_it) fun hf0 _ => At.with (x := last) (by at_it) fun hl0 _ => At.with (x := sFirst) (by at_it) fun hs0 _ => At.with (x := sLast) (by at_it) fun ht0 _ => ?_
  unfold Algo.findFirstOf at hw
  unfold IAlgo.findFirstOf
  simp only [hf0, hl0, hs0, ht0, or_self, ↓reduceIte, bind_assoc, pure_bind] at hw ⊢
  istep
  istep
  istep
  istep
  refine hO.chk (by omega) (by cancel) ?_
  istep
  intro f _
  istep
  intro l _
  istep
  intro sf _
  istep
  intro sl _
  refine (findFirstOfLoop_ref hr hr2 hij hj hab hb h3).use hw (by cancel) fun k _ c1 hf hw => ?_
  xintro m
  refine hO.set (by cancel) (by at_it) fun o => ?_
  istep
  istep
  istep
  istep
  refine Triple.pre ?_ (hk _ _ _ (by exact ⟨hf.1, hf.2⟩) hw)
  cancel
end

/-! ## the last match -/

section
variable {a b first2 last2 sf sl sFirst sLast it s fd : Nat} {o2 : Out}

theorem lastLoop_ref (hr : r.Ok True Z S) {search : M V Bool} {searchP : Nat → M V (Bool × Nat)} {X : HProp V} (hj : j ≤ r.len)
    (hs : ∀ i, i ≤ j → RefC (It r f i ∗ X ∗ S) search (searchP i) (fun a' b => b = a'.1 ∧ i ≤ a'.2 ∧ a'.2 ≤ j ∧ (a'.1 = true → a'.2 < j)) (fun a' _ => It r f a'.2 ∗ X ∗ S))
    {acc : Bool} {k : Nat} (hij : i ≤ j) (hk : k ≤ j) :
    RefC (It r f i ∗ It r fd k ∗ X ∗ S) (lastLoop search f fd acc) (Algo.lastLoop searchP i (acc, k)) (fun a' b => b = a'.1 ∧ a'.2 ≤ j)
      (fun a' _ => ∃ₛ m, It r f m ∗ It r fd a'.2 ∗ X ∗ S) := by
  induction hn : j + 1 - i using Nat.strongRecOn generalizing i acc k with
  | _ n ih =>
    intro β γ K' K c Ψ F Q hw hK
    rw [Algo.lastLoop] at hw
    rw [lastLoop]
    simp only [bind_assoc] at hw ⊢
    refine (hs i hij).use hw (F := It r fd k ∗ F) (by cancel) fun p q c1 hf hw => ?_
    obtain ⟨rfl, h1, h2, h3⟩ := hf
    cases hp : p.1
    · simp only [hp, Bool.false_eq_true, ↓reduceIte, pure_bind] at hw ⊢
      refine Triple.pre ?_ (hK _ _ _ (by exact ⟨rfl, hk⟩) hw)
      xexists p.2
      cancel
    · have := h3 hp
      simp only [hp, ↓reduceIte, bind_assoc] at hw ⊢
      istep
      istep
      refine (ih (j + 1 - (p.2 + 1)) (by omega) (i := p.2 + 1) (acc := true) (k := p.2) (by omega) (by omega) rfl).use hw (by cancel) hK

theorem findLastOf_ref (hr : r.Ok True Z S) (hr2 : r2.Ok True Z S) (hij : i ≤ j) (hj : j ≤ r.len) (hab : a ≤ b) (hb : b ≤ r2.len) (h1 : At A r first i) (h2 : At A r last j)
    (h3 : At A r2 sFirst a) (h4 : At A r2 sLast b) {pred : V → V → Bool} (hO : OutOk r o A B) :
    RefC (A ∗ S) (IAlgo.findLastOf first last sFirst sLast o pred) (Algo.findLastOf r.ref i j r2.ref a b pred)
      (fun a' q => q.1 = a'.1 ∧ a'.2 ≤ j) (fun a' q => B a'.2 q.2 ∗ S) := by
  intro β γ K' K c Ψ F Q hw hk
  have hc := cate_ge r.kind
  have hc2 := cate_ge r2.kind
  refine At.with (x := first) (by at_it) fun hf0 _ => At.with (x := last) (by at_it) fun hl0 _ => At.with (x := sFirst) (by at_it) fun hs0 _ => At.with (x := sLast) (by at_it) fun ht0 _ => ?_
  unfold Algo.findLastOf at hw
  unfold IAlgo.findLastOf
  simp only [hf0, hl0, hs0, ht0, or_self, ↓reduceIte, bind_assoc, pure_bind] at hw ⊢
  istep
  istep
  istep
  istep
  refine hO.chk (by omega) (by cancel) ?_
  istep
  intro f _
  istep
  intro l _
  istep
  intro sf _
  istep
  intro sl _
  istep
  intro fd _
  refine (lastLoop_ref (X := It r l j ∗ A) hr hj (fun i' hi' => ?_) hij (Nat.le_refl j)).use hw (by cancel) fun k _ c1 hf hw => ?_
  · intro β γ K' K c Ψ F Q hw hk
    simp only [bind_assoc, pure_bind]
    refine (findFirstOf_ref (A := It r f i' ∗ It r l j ∗ A) (i := i') (j := j) hr hr2 hi' hj hab hb (by at_it) (by at_it) (by at_it) (by at_it) OutOk.loc).use hw (by cancel) fun p q c1 hf hw => ?_
    xintro rfl
    refine Triple.pre ?_ (hk _ _ _ hf hw)
    cancel
  xintro m
  refine hO.set (by cancel) (by at_it) fun o => ?_
  istep
  istep
  istep
  istep
  istep
  refine Triple.pre ?_ (hk _ _ _ (by exact ⟨hf.1, hf.2⟩) hw)
  cancel

/-! ## adjacent_find -/

theorem adjacentLoop_ref (hr : r.Ok True Z S) {pred : V → V → Bool} (hi : i < j) (hj : j ≤ r.len) :
    RefC (It r f i ∗ It r s (i + 1) ∗ It r l j ∗ S) (adjacentLoop pred f s l) (Algo.adjacentLoop r.ref pred i (i + 1) j)
      (fun p _ => i ≤ p.1 ∧ p.2 = p.1 + 1 ∧ p.2 ≤ j) (fun p _ => It r f p.1 ∗ It r s p.2 ∗ It r l j ∗ S) := by
  induction hn : j - i generalizing i with
  | zero => omega
  | succ n ih =>
    intro β γ K' K c Ψ F Q hw hk
    rw [Algo.adjacentLoop] at hw
    rw [adjacentLoop]
    simp only [bind_assoc] at hw ⊢
    istep
    by_cases hne : i + 1 = j
    · simp only [ne_eq, hne, not_true_eq_false, decide_false, Bool.false_eq_true, ↓reduceIte, pure_bind] at hw ⊢
      refine Triple.pre ?_ (hk _ _ _ (by exact ⟨by simp, by simp [hne], by simp⟩) hw)
      cancel
    · simp only [ne_eq, hne, not_false_eq_true, decide_true, ↓reduceIte, bind_assoc] at hw ⊢
      istep
      intro b c1 hw
      cases b
      · simp only [Bool.false_eq_true, ↓reduceIte, Bool.not_false, bind_assoc] at hw ⊢
        istep
        istep
        refine (ih (i := i + 1) (by omega) (by omega)).use hw (by cancel) fun p _ c1 hf hw => ?_
        exact hk _ _ _ (by exact ⟨by omega, hf.2⟩) hw
      · simp only [↓reduceIte, Bool.not_true, Bool.false_eq_true, pure_bind] at hw ⊢
        refine Triple.pre ?_ (hk _ _ _ (by exact ⟨by simp, by simp, by dsimp only; omega⟩) hw)
        cancel

theorem adjacentFind_ref (hr : r.Ok True Z S) (hij : i ≤ j) (hj : j ≤ r.len) (h1 : At A r first i) (h2 : At A r last j) {pred : V → V → Bool} (hO : OutOk r o A B) (hI : OutIn r o A B last j) :
    RefC (A ∗ S) (IAlgo.adjacentFind first last o pred) (Algo.adjacentFind r.ref i j pred)
      (fun a' q => q.1 = a'.1 ∧ i ≤ a'.2 ∧ a'.2 ≤ j) (fun a' q => B a'.2 q.2 ∗ S) := by
  intro β γ K' K c Ψ F Q hw hk
  have hc := cate_ge r.kind
  refine At.with (x := first) (by at_it) fun hf0 _ => At.with (x := last) (by at_it) fun hl0 _ => ?_
  unfold Algo.adjacentFind at hw
  unfold IAlgo.adjacentFind
  simp only [hf0, hl0, or_self, ↓reduceIte, bind_assoc, pure_bind] at hw ⊢
  istep
  istep
  refine hO.chk (by omega) (by cancel) ?_
  istep
  by_cases he : i = j
  · subst he
    simp only [decide_true, ↓reduceIte, bind_assoc, pure_bind] at hw ⊢
    refine hI (by cancel) fun o => ?_
    refine Triple.pre ?_ (hk _ _ _ (by exact ⟨rfl, by simp, by simp⟩) hw)
    cancel
  · simp only [he, decide_false, Bool.false_eq_true, ↓reduceIte, bind_assoc, pure_bind] at hw ⊢
    istep
    intro f _
    istep
    intro l _
    istep
    intro fd _
    refine copyMove_at0 (i := i) (by at_it) hr (by cancel) (by omega) (by omega) (by omega) (.inl (by omega)) fun s _ => ?_
    rw [show ((i : Int) + 1).toNat = i + 1 by omega]
    refine (adjacentLoop_ref hr (by omega) hj).use hw (by cancel) fun p _ c1 hf hw => ?_
    istep
    by_cases hp : p.2 = j
    · simp only [ne_eq, hp, not_true_eq_false, decide_false, Bool.false_eq_true, ↓reduceIte, pure_bind, bne_self_eq_false] at hw ⊢
      refine hO.set (by cancel) (i := j) (by at_it) fun o => ?_
      istep
      istep
      istep
      istep
      refine Triple.pre ?_ (hk _ _ _ (by exact ⟨rfl, by dsimp only; omega, by simp⟩) hw)
      cancel
    · have hb : (p.2 != j) = true := by simpa using hp
      simp only [ne_eq, hp, not_false_eq_true, decide_true, ↓reduceIte, bind_assoc, pure_bind, hb] at hw ⊢
      istep
      refine hO.set (by cancel) (i := p.1) (by at_it) fun o => ?_
      istep
      istep
      istep
      istep
      refine Triple.pre ?_ (hk _ _ _ (by exact ⟨rfl, by dsimp only; omega, by dsimp only; omega⟩) hw)
      cancel

/-! ## search -/

theorem matchLoop_ref (hr : r.Ok True Z S) (hr2 : r2.Ok True Z S) {pred : V → V → Bool} (hij : i ≤ j) (hj : j ≤ r.len) (hab : a ≤ b) (hb : b ≤ r2.len) :
    RefC (It r it i ∗ It r l j ∗ It r2 s a ∗ It r2 sl b ∗ S) (matchLoop pred it l s sl) (Algo.matchLoop r.ref r2.ref pred i j a b) (fun k _ => a ≤ k ∧ k ≤ b)
      (fun k _ => ∃ₛ m, It r it m ∗ It r l j ∗ It r2 s k ∗ It r2 sl b ∗ S) := by
  induction hn : j - i generalizing i a with
  | zero =>
    obtain rfl : i = j := by omega
    intro β γ K' K c Ψ F Q hw hk
    rw [Algo.matchLoop, if_neg (by simp), pure_bind] at hw
    rw [matchLoop, bind_assoc]
    istep
    simp only [ne_eq, not_true_eq_false, decide_false, Bool.false_eq_true, ↓reduceIte, pure_bind]
    refine Triple.pre ?_ (hk _ _ _ (by exact ⟨by omega, by omega⟩) hw)
    xexists i
    cancel
  | succ n ih =>
    intro β γ K' K c Ψ F Q hw hk
    have hne : i ≠ j := by omega
    rw [Algo.matchLoop] at hw
    rw [matchLoop]
    simp only [bind_assoc] at hw ⊢
    istep
    simp only [ne_eq, hne, not_false_eq_true, decide_true, ↓reduceIte, bind_assoc, true_and] at hw ⊢
    istep
    by_cases hab' : a = b
    · simp only [ne_eq, hab', not_true_eq_false, decide_false, Bool.false_eq_true, ↓reduceIte, pure_bind] at hw ⊢
      refine Triple.pre ?_ (hk _ _ _ (by exact ⟨by omega, by omega⟩) hw)
      xexists i
      cancel
    · simp only [ne_eq, hab', not_false_eq_true, decide_true, ↓reduceIte, bind_assoc] at hw ⊢
      istep
      intro b' c1 hw
      cases b'
      · simp only [Bool.false_eq_true, ↓reduceIte, pure_bind] at hw ⊢
        refine Triple.pre ?_ (hk _ _ _ (by exact ⟨by omega, by omega⟩) hw)
        xexists i
        cancel
      · simp only [↓reduceIte, bind_assoc] at hw ⊢
        istep
        istep
        refine (ih (i := i + 1) (a := a + 1) (by omega) (by omega) (by omega)).use hw (by cancel) fun k _ c1 hf hw => ?_
        exact hk _ _ _ (by exact ⟨by omega, hf.2⟩) hw

theorem searchLoop_ref (hr : r.Ok True Z S) (hr2 : r2.Ok True Z S) {pred : V → V → Bool} (hij : i ≤ j) (hj : j ≤ r.len) (hab : a ≤ b) (hb : b ≤ r2.len) :
    RefC (It r f i ∗ It r l j ∗ It r2 sf a ∗ It r2 sl b ∗ It r it i ∗ It r2 s a ∗ S) (searchLoop pred f l sf sl it s) (Algo.searchLoop r.ref r2.ref pred i j a b)
      (fun q q' => q' = q.1 ∧ i ≤ q.2 ∧ q.2 ≤ j ∧ (q.1 = true → q.2 < j) ∧ (q.1 = false → q.2 = j))
      (fun q _ => ∃ₛ m1 m2, It r f q.2 ∗ It r it m1 ∗ It r2 s m2 ∗ It r l j ∗ It r2 sf a ∗ It r2 sl b ∗ S) := by
  induction hn : j - i generalizing i with
  | zero =>
    obtain rfl : i = j := by omega
    intro β γ K' K c Ψ F Q hw hk
    rw [Algo.searchLoop, if_neg (by simp), pure_bind] at hw
    rw [searchLoop, bind_assoc]
    istep
    simp only [ne_eq, not_true_eq_false, decide_false, Bool.false_eq_true, ↓reduceIte, pure_bind]
    refine Triple.pre ?_ (hk _ _ _ (by exact ⟨rfl, by simp, by simp, by simp, by simp⟩) hw)
    xexists i
    xexists a
    cancel
  | succ n ih =>
    intro β γ K' K c Ψ F Q hw hk
    have hne : i ≠ j := by omega
    rw [Algo.searchLoop, if_pos hne] at hw
    rw [searchLoop]
    simp only [bind_assoc] at hw ⊢
    istep
    simp only [ne_eq, hne, not_false_eq_true, decide_true, ↓reduceIte, bind_assoc]
    refine (matchLoop_ref hr hr2 hij hj hab hb).use hw (by cancel) fun k _ c1 hf hw => ?_
    xintro m
    istep
    by_cases hkb : k = b
    · simp only [hkb, decide_true, ↓reduceIte, pure_bind] at hw ⊢
      refine Triple.pre ?_ (hk _ _ _ (by exact ⟨rfl, by simp, by dsimp only; omega, fun _ => by dsimp only; omega, by simp⟩) hw)
      xexists m
      xexists b
      cancel
    · simp only [hkb, decide_false, Bool.false_eq_true, ↓reduceIte, bind_assoc] at hw ⊢
      istep
      istep
      istep
      refine (ih (i := i + 1) (by omega) (by omega)).use hw (by cancel) fun k _ c1 hf hw => ?_
      exact hk _ _ _ (by exact ⟨hf.1, by omega, hf.2.2⟩) hw

theorem search_ref (hr : r.Ok True Z S) (hr2 : r2.Ok True Z S) (hij : i ≤ j) (hj : j ≤ r.len) (hab : a ≤ b) (hb : b ≤ r2.len) (h1 : At A r first i) (h2 : At A r last j)
    (h3 : At A r2 sFirst a) (h4 : At A r2 sLast b) {pred : V → V → Bool} (hO : OutOk r o A B) :
    RefC (A ∗ S) (IAlgo.search first last sFirst sLast o pred) (Algo.search r.ref i j r2.ref a b pred)
      (fun a' q => q.1 = a'.1 ∧ i ≤ a'.2 ∧ a'.2 ≤ j ∧ (a'.1 = true → a'.2 < j)) (fun a' q => B a'.2 q.2 ∗ S) := by
  intro β γ K' K c Ψ F Q hw hk
  have hc := cate_ge r.kind
  have hc2 := cate_ge r2.kind
  refine At.with (x := first) (by at_it) fun hf0 _ => At.with (x := last) (by at_it) fun hl0 _ => At.with (x := sFirst) (by at_it) fun hs0 _ => At.with (x := sLast) (by at_it) fun ht0 _ => ?_
  unfold Algo.search at hw
  unfold IAlgo.search
  simp only [hf0, hl0, hs0, ht0, or_self, ↓reduceIte, bind_assoc, pure_bind] at hw ⊢
  istep
  istep
  istep
  istep
  refine hO.chk (by omega) (by cancel) ?_
  istep
  intro f _
  istep
  intro l _
  istep
  intro sf _
  istep
  intro sl _
  istep
  intro fd _
  istep
  intro it _
  istep
  intro s _
  refine (searchLoop_ref hr hr2 hij hj hab hb).use hw (by cancel) fun p q c1 hf hw => ?_
  xintro m1
  xintro m2
  obtain ⟨rfl, hf1, hf2, hf3, hf4⟩ := hf
  refine Triple.bind (Q := fun _ => It r fd p.2 ∗ A ∗ It r f p.2 ∗ It r it m1 ∗ It r2 s m2 ∗ It r l j ∗ It r2 sf a ∗ It r2 sl b ∗ S ∗ Ex c1 ∗ F) ?_ fun _ => ?_
  · cases hp : p.1
    · simp only [Bool.false_eq_true, ↓reduceIte]
      apply Triple.ret
      rw [hf4 hp]
      cancel
    · simp only [↓reduceIte]
      istep
      apply Triple.ret
      cancel
  refine hO.set (by cancel) (i := p.2) (by at_it) fun o => ?_
  istep
  istep
  istep
  istep
  istep
  istep
  istep
  refine Triple.pre ?_ (hk _ _ _ (by exact ⟨rfl, hf1, hf2, hf3⟩) hw)
  cancel

theorem searchLast_ref (hr : r.Ok True Z S) (hr2 : r2.Ok True Z S) (hij : i ≤ j) (hj : j ≤ r.len) (hab : a ≤ b) (hb : b ≤ r2.len) (h1 : At A r first i) (h2 : At A r last j)
    (h3 : At A r2 sFirst a) (h4 : At A r2 sLast b) {pred : V → V → Bool} (hO : OutOk r o A B) :
    RefC (A ∗ S) (IAlgo.searchLast first last sFirst sLast o pred) (Algo.searchLast r.ref i j r2.ref a b pred)
      (fun a' q => q.1 = a'.1 ∧ a'.2 ≤ j) (fun a' q => B a'.2 q.2 ∗ S) := by
  intro β γ K' K c Ψ F Q hw hk
  have hc := cate_ge r.kind
  have hc2 := cate_ge r2.kind
  refine At.with (x := first) (by at_it) fun hf0 _ => At.with (x := last) (by at_it) fun hl0 _ => At.with (x := sFirst) (by at_it) fun hs0 _ => At.with (x := sLast) (by at_it) fun ht0 _ => ?_
  unfold Algo.searchLast at hw
  unfold IAlgo.searchLast
  simp only [hf0, hl0, hs0, ht0, or_self, ↓reduceIte, bind_assoc, pure_bind] at hw ⊢
  istep
  istep
  istep
  istep
  refine hO.chk (by omega) (by cancel) ?_
  istep
  intro f _
  istep
  intro l _
  istep
  intro sf _
  istep
  intro sl _
  istep
  intro fd _
  refine (lastLoop_ref (X := It r l j ∗ It r2 sf a ∗ It r2 sl b ∗ A) hr hj (fun i' hi' => ?_) hij (Nat.le_refl j)).use hw (by cancel) fun k _ c1 hf hw => ?_
  · intro β γ K' K c Ψ F Q hw hk
    simp only [bind_assoc, pure_bind]
    refine (search_ref (A := It r f i' ∗ It r l j ∗ It r2 sf a ∗ It r2 sl b ∗ A) (i := i') (j := j) hr hr2 hi' hj hab hb (by at_it) (by at_it) (by at_it) (by at_it) OutOk.loc).use hw (by cancel) fun p q c1 hf hw => ?_
    xintro rfl
    refine Triple.pre ?_ (hk _ _ _ hf hw)
    cancel
  xintro m
  refine hO.set (by cancel) (by at_it) fun o => ?_
  istep
  istep
  istep
  istep
  istep
  refine Triple.pre ?_ (hk _ _ _ (by exact ⟨hf.1, hf.2⟩) hw)
  cancel

/-! ## search_n -/

theorem runLoop_ref (hr : r.Ok True Z S) {pred : V → V → Bool} {value : Loc} (hij : i ≤ j) (hj : j ≤ r.len) :
    RefC (It r it i ∗ It r l j ∗ S) (runLoop value pred n it l) (Algo.runLoop r.ref value pred n i j) (fun q q' => q' = q.1 ∧ i ≤ q.2 ∧ q.2 ≤ j) (fun q _ => It r it q.2 ∗ It r l j ∗ S) := by
  induction n generalizing i with
  | zero =>
    intro β γ K' K c Ψ F Q hw hk
    rw [Algo.runLoop, if_neg (by simp), pure_bind] at hw
    rw [runLoop, if_neg (by simp), pure_bind]
    exact hk _ _ _ (by exact ⟨rfl, by simp, hij⟩) hw
  | succ n ih =>
    intro β γ K' K c Ψ F Q hw hk
    rw [Algo.runLoop] at hw
    rw [runLoop, if_pos (by simp)]
    simp only [bind_assoc]
    istep
    by_cases he : i = j
    · rw [if_neg (by simp [he]), pure_bind] at hw
      simp only [ne_eq, he, not_true_eq_false, decide_false, Bool.false_eq_true, ↓reduceIte, pure_bind]
      refine Triple.pre ?_ (hk _ _ _ (by exact ⟨rfl, by simp, hij⟩) hw)
      subst he
      cancel
    · rw [if_pos ⟨by simp, he⟩] at hw
      simp only [bind_assoc] at hw
      simp only [ne_eq, he, not_false_eq_true, decide_true, ↓reduceIte, bind_assoc]
      istep
      intro b c1 hw
      cases b
      · simp only [Bool.false_eq_true, ↓reduceIte, pure_bind] at hw ⊢
        refine Triple.pre ?_ (hk _ _ _ (by exact ⟨rfl, by simp, hij⟩) hw)
        cancel
      · simp only [↓reduceIte, bind_assoc, Nat.add_sub_cancel] at hw ⊢
        istep
        refine (ih (i := i + 1) (by omega)).use hw (by cancel) fun k _ c1 hf hw => ?_
        exact hk _ _ _ (by exact ⟨hf.1, by omega, hf.2.2⟩) hw

theorem searchNLoop_ref (hr : r.Ok True Z S) {pred : V → V → Bool} {value : Loc} (hv : value.1 ≠ 0) (hij : i ≤ j) (hj : j ≤ r.len) {m : Nat} :
    RefC (It r f m ∗ It r it i ∗ It r l j ∗ S) (searchNLoop value pred n f it l) (Algo.searchNLoop r.ref value pred n i j)
      (fun q q' => q' = q.1 ∧ i ≤ q.2 ∧ q.2 ≤ j ∧ (q.1 = true → q.2 < j) ∧ (q.1 = false → q.2 = j)) (fun q _ => ∃ₛ m k, ⌜q.1 = true → m = q.2⌝ ∗ It r f m ∗ It r it k ∗ It r l j ∗ S) := by
  induction hn : j + 1 - i using Nat.strongRecOn generalizing i m with
  | _ N ih =>
    intro β γ K' K c Ψ F Q hw hk
    rw [Algo.searchNLoop] at hw
    rw [searchNLoop]
    simp only [bind_assoc] at hw ⊢
    refine (findBy_ref (A := It r f m ∗ It r it i ∗ It r l j) hr hij hj (by at_it) (by at_it) hv OutOk.loc).use hw (by cancel) fun p q c1 hf hw => ?_
    xintro hq
    obtain ⟨he, h1, h2, h3⟩ := hf
    rw [he]
    cases hp : p.1
    · simp only [hp, Bool.false_eq_true, ↓reduceIte, pure_bind] at hw ⊢
      refine Triple.pre ?_ (hk _ _ _ (by exact ⟨rfl, hij, by simp, by simp, by simp⟩) hw)
      xexists p.2
      xexists i
      cancel
      simp
    · have := h3 hp
      simp only [hp, ↓reduceIte, bind_assoc] at hw ⊢
      istep
      istep
      refine (runLoop_ref hr (i := p.2 + 1) (by omega) hj).use hw (by cancel) fun k k' c1 hf hw => ?_
      obtain ⟨rfl, h4, h5⟩ := hf
      by_cases h0 : k.1 = 0
      · simp only [h0, ↓reduceIte, pure_bind] at hw ⊢
        refine Triple.pre ?_ (hk _ _ _ (by exact ⟨rfl, h1, h2, fun _ => this, by simp⟩) hw)
        xexists p.2
        xexists k.2
        cancel
        simp
      · simp only [h0, ↓reduceIte] at hw ⊢
        refine (ih _ (by omega) (i := k.2) (by omega) rfl).use hw (by cancel) fun k _ c1 hf hw => ?_
        exact hk _ _ _ (by exact ⟨hf.1, by omega, hf.2.2⟩) hw

theorem searchN_ref (hr : r.Ok True Z S) (hij : i ≤ j) (hj : j ≤ r.len) (h1 : At A r first i) (h2 : At A r last j) {pred : V → V → Bool} {value : Loc} (hv : value.1 ≠ 0)
    (hO : OutOk r o A B) (hI : OutIn r o A B last j) :
    RefC (A ∗ S) (IAlgo.searchN first last n value o pred) (Algo.searchN r.ref i j n value pred)
      (fun a' q => q.1 = a'.1 ∧ i ≤ a'.2 ∧ a'.2 ≤ j ∧ (a'.1 = true → a'.2 < j)) (fun a' q => B a'.2 q.2 ∗ S) := by
  intro β γ K' K c Ψ F Q hw hk
  have hc := cate_ge r.kind
  refine At.with (x := first) (by at_it) fun hf0 _ => At.with (x := last) (by at_it) fun hl0 _ => ?_
  unfold Algo.searchN at hw
  unfold IAlgo.searchN
  simp only [hf0, hl0, hv, or_self, ↓reduceIte, bind_assoc, pure_bind] at hw ⊢
  istep
  istep
  refine hO.chk (by omega) (by cancel) ?_
  by_cases hn : n = 0
  · simp only [hn, ↓reduceIte, bind_assoc, pure_bind] at hw ⊢
    refine hI (by cancel) fun o => ?_
    refine Triple.pre ?_ (hk _ _ _ (by exact ⟨rfl, hij, by simp, by simp⟩) hw)
    cancel
  simp only [hn, ↓reduceIte, bind_assoc, pure_bind] at hw ⊢
  istep
  intro f _
  istep
  intro l _
  istep
  intro fd _
  istep
  intro it _
  refine (searchNLoop_ref hr hv hij hj).use hw (by cancel) fun p q c1 hf hw => ?_
  xintro m
  xintro k
  xintro hm
  obtain ⟨rfl, hf1, hf2, hf3, hf4⟩ := hf
  refine Triple.bind (Q := fun _ => It r fd p.2 ∗ A ∗ It r f m ∗ It r it k ∗ It r l j ∗ S ∗ Ex c1 ∗ F) ?_ fun _ => ?_
  · cases hp : p.1
    · simp only [Bool.false_eq_true, ↓reduceIte]
      apply Triple.ret
      rw [hf4 hp]
      cancel
    · simp only [↓reduceIte]
      istep
      apply Triple.ret
      rw [hm hp]
      cancel
  refine hO.set (by cancel) (i := p.2) (by at_it) fun o => ?_
  istep
  istep
  istep
  istep
  refine Triple.pre ?_ (hk _ _ _ (by exact ⟨rfl, hf1, hf2, hf3⟩) hw)
  cancel

theorem searchLastN_ref (hr : r.Ok True Z S) (hij : i ≤ j) (hj : j ≤ r.len) (h1 : At A r first i) (h2 : At A r last j) {pred : V → V → Bool} {value : Loc} (hv : value.1 ≠ 0)
    (hO : OutOk r o A B) (hI : OutIn r o A B last j) :
    RefC (A ∗ S) (IAlgo.searchLastN first last n value o pred) (Algo.searchLastN r.ref i j n value pred) (fun a' q => q.1 = a'.1 ∧ a'.2 ≤ j) (fun a' q => B a'.2 q.2 ∗ S) := by
  intro β γ K' K c Ψ F Q hw hk
  have hc := cate_ge r.kind
  refine At.with (x := first) (by at_it) fun hf0 _ => At.with (x := last) (by at_it) fun hl0 _ => ?_
  unfold Algo.searchLastN at hw
  unfold IAlgo.searchLastN
  simp only [hf0, hl0, hv, or_self, ↓reduceIte, bind_assoc, pure_bind] at hw ⊢
  istep
  istep
  refine hO.chk (by omega) (by cancel) ?_
  by_cases hn : n = 0
  · simp only [hn, ↓reduceIte, bind_assoc, pure_bind] at hw ⊢
    refine hI (by cancel) fun o => ?_
    refine Triple.pre ?_ (hk _ _ _ (by exact ⟨rfl, by simp⟩) hw)
    cancel
  simp only [hn, ↓reduceIte, bind_assoc, pure_bind] at hw ⊢
  istep
  intro f _
  istep
  intro l _
  istep
  intro fd _
  refine (lastLoop_ref (X := It r l j ∗ A) hr hj (fun i' hi' => ?_) hij (Nat.le_refl j)).use hw (by cancel) fun k _ c1 hf hw => ?_
  · intro β γ K' K c Ψ F Q hw hk
    simp only [bind_assoc, pure_bind]
    refine (searchN_ref (A := It r f i' ∗ It r l j ∗ A) (i := i') (j := j) hr hi' hj (by at_it) (by at_it) hv OutOk.loc (OutIn.loc (by at_it))).use hw (by cancel) fun p q c1 hf hw => ?_
    xintro rfl
    refine Triple.pre ?_ (hk _ _ _ hf hw)
    cancel
  xintro m
  refine hO.set (by cancel) (by at_it) fun o => ?_
  istep
  istep
  istep
  refine Triple.pre ?_ (hk _ _ _ (by exact ⟨hf.1, hf.2⟩) hw)
  cancel
end

end CC.IAlgo
