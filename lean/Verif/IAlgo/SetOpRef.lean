import Verif.IAlgo.ModifyRef
import Verif.IAlgo.SetOp
import Verif.Algo.SetOp
/-!
# `algorithm/c_set_op.c` on iterator objects does what the programs on positions do
-/
namespace CC.IAlgo
open CC CC.Tac CC.Iter CC.Algo
variable {V α β γ : Type} {Z : Nat → Nat} {S A P F R : HProp V} {r r2 r3 : Src V} {x y i j k m n a f1 l1 f2 l2 d first1 last1 first2 last2 dFirst : Nat} {o o2 : IAlgo.Out} {B : Nat → Nat → HProp V}

/-- (there is room in the destination for what is written) -/
theorem copyRoomLoop_ref {f l : Nat} (hr : r.Ok True Z S) (hr3 : r3.Ok True Z S) (hij : i ≤ j) (hj : j ≤ r.len) (ha : a ≤ r3.len) :
    RefC (It r f i ∗ It r l j ∗ It r3 d a ∗ S) (copyLoop f l d n) (Algo.copyLoop r.ref r3.slots i j a n)
      (fun p q => q = p.1 ∧ p.2 ≤ r3.len) (fun p _ => It r f j ∗ It r l j ∗ It r3 d p.2 ∗ S) := by
  induction hN : j - i generalizing i a n with
  | zero =>
    obtain rfl : i = j := by omega
    lzero Algo.copyLoop copyLoop
    refine Triple.pre ?_ (hk _ _ _ (by exact ⟨rfl, by dsimp only; omega⟩) hw)
    cancel
  | succ N ih =>
    have h1 : i ≠ j := by omega
    lsucc Algo.copyLoop copyLoop h1
    refine room_asg hw (by cancel) fun hlt hw => ?_
    istep
    intro c1 hw
    istep
    istep
    refine (ih (i := i + 1) (a := a + 1) (n := n + 1) (by omega) (by omega) (by omega)).use hw (by cancel) fun k' _ c1 hf hw => ?_
    exact hk _ _ _ hf hw

/-- (there is room in the destination for what is written) -/
theorem copyRoom_ref {first last : Nat} (hr : r.Ok True Z S) (hr3 : r3.Ok True Z S) (hij : i ≤ j) (hj : j ≤ r.len) (h1 : At A r first i) (h2 : At A r last j) (hm : r3.kind.type < 7) (h3 : At A r3 dFirst a)
    (ha : a ≤ r3.len) {low : Nat → Nat} (hlow : ∀ q, q ≠ 0 → 2 ≤ low q) (hO : OutOk r3 o A B) :
    RefC (A ∗ S) (IAlgo.copy low first last dFirst o) (Algo.copy r.ref i j r3.slots a) (fun p q => q.1 = p.1 ∧ p.2 ≤ r3.len) (fun p q => B p.2 q.2 ∗ S) := by
  intro β γ K' K c Ψ F Q hw hk
  have hc := cate_ge r.kind
  have hc2 := cate_ge r3.kind
  inz first hf0
  inz last hl0
  inz dFirst hd0
  unfold Algo.copy at hw
  unfold IAlgo.copy
  simp only [hf0, hl0, hd0, or_self, ↓reduceIte, bind_assoc] at hw ⊢
  isteps
  refine hO.low hlow (by cancel) ?_
  isteps
  refine (copyRoomLoop_ref hr hr3 hij hj ha).use hw (by cancel) fun p q c1 hf hw => ?_
  refine hO.set (by cancel) (i := p.2) (by at_it) fun o => ?_
  isteps
  simp only [pure_bind]
  refine Triple.pre ?_ (hk _ _ _ hf hw)
  cancel

/-- the condition of the loops of this file -/
theorem both_ne {b d : Nat} {p q : M V α} (h : i ≠ j) (h2 : b ≠ d) : (if i ≠ j ∧ b ≠ d then p else q) = p := if_pos ⟨h, h2⟩
theorem left_eq {b d : Nat} {p q : M V α} : (if i ≠ i ∧ b ≠ d then p else q) = q := if_neg (by simp)
theorem right_eq {b : Nat} {p q : M V α} : (if i ≠ j ∧ b ≠ b then p else q) = q := if_neg (by simp)

theorem mergeLoop_ref (hr : r.Ok True Z S) (hr2 : r2.Ok True Z S) (hr3 : r3.Ok True Z S) {comp : V → V → Bool} (hij : i ≤ j) (hj : j ≤ r.len) (hkm : k ≤ m) (hm : m ≤ r2.len) (ha : a ≤ r3.len) :
    RefC (It r f1 i ∗ It r l1 j ∗ It r2 f2 k ∗ It r2 l2 m ∗ It r3 d a ∗ S) (mergeLoop comp f1 l1 f2 l2 d n) (Algo.mergeLoop r.ref r2.ref r3.slots comp i j k m a n)
      (fun p q => q = p.2.2.2 ∧ p.1 ≤ j ∧ p.2.1 ≤ m ∧ p.2.2.1 ≤ r3.len) (fun p _ => It r f1 p.1 ∗ It r l1 j ∗ It r2 f2 p.2.1 ∗ It r2 l2 m ∗ It r3 d p.2.2.1 ∗ S) := by
  induction hN : (j - i) + (m - k) using Nat.strongRecOn generalizing i k a n with | _ N ih => ?_
  by_cases h1 : i = j
  · subst h1
    intro β γ K' K c Ψ F Q hw hk
    rw [Algo.mergeLoop, left_eq] at hw
    rw [mergeLoop]
    simp only [bind_assoc, pure_bind] at hw ⊢
    istep
    simp only [ne_eq, not_true_eq_false, decide_false, Bool.false_eq_true, ↓reduceIte, bind_assoc, pure_bind]
    refine Triple.pre ?_ (hk _ _ _ (by exact ⟨rfl, by dsimp only; omega, by dsimp only; omega, by dsimp only; omega⟩) hw)
    cancel
  by_cases h2 : k = m
  · subst h2
    intro β γ K' K c Ψ F Q hw hk
    rw [Algo.mergeLoop, right_eq] at hw
    rw [mergeLoop]
    simp only [bind_assoc, pure_bind] at hw ⊢
    istep
    simp only [ne_eq, h1, not_false_eq_true, decide_true, ↓reduceIte, bind_assoc]
    istep
    simp only [ne_eq, not_true_eq_false, decide_false, Bool.false_eq_true, ↓reduceIte, bind_assoc, pure_bind]
    refine Triple.pre ?_ (hk _ _ _ (by exact ⟨rfl, by dsimp only; omega, by dsimp only; omega, by dsimp only; omega⟩) hw)
    cancel
  intro β γ K' K c Ψ F Q hw hk
  rw [Algo.mergeLoop, both_ne h1 h2] at hw
  rw [mergeLoop]
  simp only [bind_assoc] at hw ⊢
  istep
  simp only [ne_eq, h1, not_false_eq_true, decide_true, ↓reduceIte, bind_assoc]
  istep
  simp only [ne_eq, h2, not_false_eq_true, decide_true, ↓reduceIte, bind_assoc]
  istep
  intro b c1 hw
  cases b
  rotate_left
  · simp only [↓reduceIte, bind_assoc] at hw ⊢
    refine room_asg hw (by cancel) fun hlt hw => ?_
    istep
    intro c1 hw
    istep
    istep
    exact (ih _ (by omega) (i := i + 1) (k := k) (a := a + 1) (n := n + 1) (by omega) (by omega) (by omega) rfl).use hw (by cancel) hk
  simp only [Bool.false_eq_true, ↓reduceIte, bind_assoc] at hw ⊢
  refine room_asg hw (by cancel) fun hlt hw => ?_
  istep
  intro c1 hw
  istep
  istep
  exact (ih _ (by omega) (i := i) (k := k + 1) (a := a + 1) (n := n + 1) (by omega) (by omega) (by omega) rfl).use hw (by cancel) hk

theorem differenceLoop_ref (hr : r.Ok True Z S) (hr2 : r2.Ok True Z S) (hr3 : r3.Ok True Z S) {comp : V → V → Bool} (hij : i ≤ j) (hj : j ≤ r.len) (hkm : k ≤ m) (hm : m ≤ r2.len) (ha : a ≤ r3.len) :
    RefC (It r f1 i ∗ It r l1 j ∗ It r2 f2 k ∗ It r2 l2 m ∗ It r3 d a ∗ S) (differenceLoop comp f1 l1 f2 l2 d n) (Algo.differenceLoop r.ref r2.ref r3.slots comp i j k m a n)
      (fun p q => q = p.2.2 ∧ p.1 ≤ j ∧ p.2.1 ≤ r3.len) (fun p _ => ∃ₛ k', It r f1 p.1 ∗ It r l1 j ∗ It r2 f2 k' ∗ It r2 l2 m ∗ It r3 d p.2.1 ∗ S) := by
  induction hN : (j - i) + (m - k) using Nat.strongRecOn generalizing i k a n with | _ N ih => ?_
  by_cases h1 : i = j
  · subst h1
    intro β γ K' K c Ψ F Q hw hk
    rw [Algo.differenceLoop, left_eq] at hw
    rw [differenceLoop]
    simp only [bind_assoc, pure_bind] at hw ⊢
    istep
    simp only [ne_eq, not_true_eq_false, decide_false, Bool.false_eq_true, ↓reduceIte, bind_assoc, pure_bind]
    refine Triple.pre ?_ (hk _ _ _ (by exact ⟨rfl, by dsimp only; omega, by dsimp only; omega⟩) hw)
    exact sep_mono (ent_refl _) (sep_mono (ent_ex_right k (ent_refl _)) (ent_refl _))
  by_cases h2 : k = m
  · subst h2
    intro β γ K' K c Ψ F Q hw hk
    rw [Algo.differenceLoop, right_eq] at hw
    rw [differenceLoop]
    simp only [bind_assoc, pure_bind] at hw ⊢
    istep
    simp only [ne_eq, h1, not_false_eq_true, decide_true, ↓reduceIte, bind_assoc]
    istep
    simp only [ne_eq, not_true_eq_false, decide_false, Bool.false_eq_true, ↓reduceIte, bind_assoc, pure_bind]
    refine Triple.pre ?_ (hk _ _ _ (by exact ⟨rfl, by dsimp only; omega, by dsimp only; omega⟩) hw)
    exact sep_mono (ent_refl _) (sep_mono (ent_ex_right k (ent_refl _)) (ent_refl _))
  intro β γ K' K c Ψ F Q hw hk
  rw [Algo.differenceLoop, both_ne h1 h2] at hw
  rw [differenceLoop]
  simp only [bind_assoc] at hw ⊢
  istep
  simp only [ne_eq, h1, not_false_eq_true, decide_true, ↓reduceIte, bind_assoc]
  istep
  simp only [ne_eq, h2, not_false_eq_true, decide_true, ↓reduceIte, bind_assoc]
  istep
  intro b c1 hw
  cases b
  rotate_left
  · simp only [↓reduceIte, bind_assoc] at hw ⊢
    refine room_asg hw (by cancel) fun hlt hw => ?_
    istep
    intro c1 hw
    istep
    istep
    exact (ih _ (by omega) (i := i + 1) (k := k) (a := a + 1) (n := n + 1) (by omega) (by omega) (by omega) rfl).use hw (by cancel) hk
  simp only [Bool.false_eq_true, ↓reduceIte, bind_assoc] at hw ⊢
  istep
  istep
  exact (ih _ (by omega) (i := i + 1) (k := k + 1) (a := a) (n := n) (by omega) (by omega) (by omega) rfl).use hw (by cancel) hk

theorem intersectionLoop_ref (hr : r.Ok True Z S) (hr2 : r2.Ok True Z S) (hr3 : r3.Ok True Z S) {comp : V → V → Bool} (hij : i ≤ j) (hj : j ≤ r.len) (hkm : k ≤ m) (hm : m ≤ r2.len) (ha : a ≤ r3.len) :
    RefC (It r f1 i ∗ It r l1 j ∗ It r2 f2 k ∗ It r2 l2 m ∗ It r3 d a ∗ S) (intersectionLoop comp f1 l1 f2 l2 d n) (Algo.intersectionLoop r.ref r2.ref r3.slots comp i j k m a n)
      (fun p q => q = p.1 ∧ p.2 ≤ r3.len) (fun p _ => ∃ₛ i' k', It r f1 i' ∗ It r l1 j ∗ It r2 f2 k' ∗ It r2 l2 m ∗ It r3 d p.2 ∗ S) := by
  induction hN : (j - i) + (m - k) using Nat.strongRecOn generalizing i k a n with | _ N ih => ?_
  by_cases h1 : i = j
  · subst h1
    intro β γ K' K c Ψ F Q hw hk
    rw [Algo.intersectionLoop, left_eq] at hw
    rw [intersectionLoop]
    simp only [bind_assoc, pure_bind] at hw ⊢
    istep
    simp only [ne_eq, not_true_eq_false, decide_false, Bool.false_eq_true, ↓reduceIte, bind_assoc, pure_bind]
    refine Triple.pre ?_ (hk _ _ _ (by exact ⟨rfl, by dsimp only; omega⟩) hw)
    exact sep_mono (ent_refl _) (sep_mono (ent_ex_right i (ent_ex_right k (ent_refl _))) (ent_refl _))
  by_cases h2 : k = m
  · subst h2
    intro β γ K' K c Ψ F Q hw hk
    rw [Algo.intersectionLoop, right_eq] at hw
    rw [intersectionLoop]
    simp only [bind_assoc, pure_bind] at hw ⊢
    istep
    simp only [ne_eq, h1, not_false_eq_true, decide_true, ↓reduceIte, bind_assoc]
    istep
    simp only [ne_eq, not_true_eq_false, decide_false, Bool.false_eq_true, ↓reduceIte, bind_assoc, pure_bind]
    refine Triple.pre ?_ (hk _ _ _ (by exact ⟨rfl, by dsimp only; omega⟩) hw)
    exact sep_mono (ent_refl _) (sep_mono (ent_ex_right i (ent_ex_right k (ent_refl _))) (ent_refl _))
  intro β γ K' K c Ψ F Q hw hk
  rw [Algo.intersectionLoop, both_ne h1 h2] at hw
  rw [intersectionLoop]
  simp only [bind_assoc] at hw ⊢
  istep
  simp only [ne_eq, h1, not_false_eq_true, decide_true, ↓reduceIte, bind_assoc]
  istep
  simp only [ne_eq, h2, not_false_eq_true, decide_true, ↓reduceIte, bind_assoc]
  istep
  intro b c1 hw
  cases b
  rotate_left
  · simp only [↓reduceIte, bind_assoc] at hw ⊢
    istep
    exact (ih _ (by omega) (i := i + 1) (k := k) (a := a) (n := n) (by omega) (by omega) (by omega) rfl).use hw (by cancel) hk
  simp only [Bool.false_eq_true, ↓reduceIte, bind_assoc] at hw ⊢
  istep
  intro b c1 hw
  cases b
  rotate_left
  · simp only [↓reduceIte, bind_assoc] at hw ⊢
    istep
    exact (ih _ (by omega) (i := i) (k := k + 1) (a := a) (n := n) (by omega) (by omega) (by omega) rfl).use hw (by cancel) hk
  simp only [Bool.false_eq_true, ↓reduceIte, bind_assoc] at hw ⊢
  refine room_asg hw (by cancel) fun hlt hw => ?_
  istep
  intro c1 hw
  istep
  istep
  istep
  exact (ih _ (by omega) (i := i + 1) (k := k + 1) (a := a + 1) (n := n + 1) (by omega) (by omega) (by omega) rfl).use hw (by cancel) hk

theorem symDifferenceLoop_ref (hr : r.Ok True Z S) (hr2 : r2.Ok True Z S) (hr3 : r3.Ok True Z S) {comp : V → V → Bool} (hij : i ≤ j) (hj : j ≤ r.len) (hkm : k ≤ m) (hm : m ≤ r2.len) (ha : a ≤ r3.len) :
    RefC (It r f1 i ∗ It r l1 j ∗ It r2 f2 k ∗ It r2 l2 m ∗ It r3 d a ∗ S) (symDifferenceLoop comp f1 l1 f2 l2 d n) (Algo.symDifferenceLoop r.ref r2.ref r3.slots comp i j k m a n)
      (fun p q => q = p.2.2.2 ∧ p.1 ≤ j ∧ p.2.1 ≤ m ∧ p.2.2.1 ≤ r3.len) (fun p _ => It r f1 p.1 ∗ It r l1 j ∗ It r2 f2 p.2.1 ∗ It r2 l2 m ∗ It r3 d p.2.2.1 ∗ S) := by
  induction hN : (j - i) + (m - k) using Nat.strongRecOn generalizing i k a n with | _ N ih => ?_
  by_cases h1 : i = j
  · subst h1
    intro β γ K' K c Ψ F Q hw hk
    rw [Algo.symDifferenceLoop, left_eq] at hw
    rw [symDifferenceLoop]
    simp only [bind_assoc, pure_bind] at hw ⊢
    istep
    simp only [ne_eq, not_true_eq_false, decide_false, Bool.false_eq_true, ↓reduceIte, bind_assoc, pure_bind]
    refine Triple.pre ?_ (hk _ _ _ (by exact ⟨rfl, by dsimp only; omega, by dsimp only; omega, by dsimp only; omega⟩) hw)
    cancel
  by_cases h2 : k = m
  · subst h2
    intro β γ K' K c Ψ F Q hw hk
    rw [Algo.symDifferenceLoop, right_eq] at hw
    rw [symDifferenceLoop]
    simp only [bind_assoc, pure_bind] at hw ⊢
    istep
    simp only [ne_eq, h1, not_false_eq_true, decide_true, ↓reduceIte, bind_assoc]
    istep
    simp only [ne_eq, not_true_eq_false, decide_false, Bool.false_eq_true, ↓reduceIte, bind_assoc, pure_bind]
    refine Triple.pre ?_ (hk _ _ _ (by exact ⟨rfl, by dsimp only; omega, by dsimp only; omega, by dsimp only; omega⟩) hw)
    cancel
  intro β γ K' K c Ψ F Q hw hk
  rw [Algo.symDifferenceLoop, both_ne h1 h2] at hw
  rw [symDifferenceLoop]
  simp only [bind_assoc] at hw ⊢
  istep
  simp only [ne_eq, h1, not_false_eq_true, decide_true, ↓reduceIte, bind_assoc]
  istep
  simp only [ne_eq, h2, not_false_eq_true, decide_true, ↓reduceIte, bind_assoc]
  istep
  intro b c1 hw
  cases b
  rotate_left
  · simp only [↓reduceIte, bind_assoc] at hw ⊢
    refine room_asg hw (by cancel) fun hlt hw => ?_
    istep
    intro c1 hw
    istep
    istep
    exact (ih _ (by omega) (i := i + 1) (k := k) (a := a + 1) (n := n + 1) (by omega) (by omega) (by omega) rfl).use hw (by cancel) hk
  simp only [Bool.false_eq_true, ↓reduceIte, bind_assoc] at hw ⊢
  istep
  intro b c1 hw
  cases b
  rotate_left
  · simp only [↓reduceIte, bind_assoc] at hw ⊢
    refine room_asg hw (by cancel) fun hlt hw => ?_
    istep
    intro c1 hw
    istep
    istep
    exact (ih _ (by omega) (i := i) (k := k + 1) (a := a + 1) (n := n + 1) (by omega) (by omega) (by omega) rfl).use hw (by cancel) hk
  simp only [Bool.false_eq_true, ↓reduceIte, bind_assoc] at hw ⊢
  istep
  istep
  exact (ih _ (by omega) (i := i + 1) (k := k + 1) (a := a) (n := n) (by omega) (by omega) (by omega) rfl).use hw (by cancel) hk

theorem unionLoop_ref (hr : r.Ok True Z S) (hr2 : r2.Ok True Z S) (hr3 : r3.Ok True Z S) {comp : V → V → Bool} (hij : i ≤ j) (hj : j ≤ r.len) (hkm : k ≤ m) (hm : m ≤ r2.len) (ha : a ≤ r3.len) :
    RefC (It r f1 i ∗ It r l1 j ∗ It r2 f2 k ∗ It r2 l2 m ∗ It r3 d a ∗ S) (unionLoop comp f1 l1 f2 l2 d n) (Algo.unionLoop r.ref r2.ref r3.slots comp i j k m a n)
      (fun p q => q = p.2.2.2 ∧ p.1 ≤ j ∧ p.2.1 ≤ m ∧ p.2.2.1 ≤ r3.len) (fun p _ => It r f1 p.1 ∗ It r l1 j ∗ It r2 f2 p.2.1 ∗ It r2 l2 m ∗ It r3 d p.2.2.1 ∗ S) := by
  induction hN : (j - i) + (m - k) using Nat.strongRecOn generalizing i k a n with | _ N ih => ?_
  by_cases h1 : i = j
  · subst h1
    intro β γ K' K c Ψ F Q hw hk
    rw [Algo.unionLoop, left_eq] at hw
    rw [unionLoop]
    simp only [bind_assoc, pure_bind] at hw ⊢
    istep
    simp only [ne_eq, not_true_eq_false, decide_false, Bool.false_eq_true, ↓reduceIte, bind_assoc, pure_bind]
    refine Triple.pre ?_ (hk _ _ _ (by exact ⟨rfl, by dsimp only; omega, by dsimp only; omega, by dsimp only; omega⟩) hw)
    cancel
  by_cases h2 : k = m
  · subst h2
    intro β γ K' K c Ψ F Q hw hk
    rw [Algo.unionLoop, right_eq] at hw
    rw [unionLoop]
    simp only [bind_assoc, pure_bind] at hw ⊢
    istep
    simp only [ne_eq, h1, not_false_eq_true, decide_true, ↓reduceIte, bind_assoc]
    istep
    simp only [ne_eq, not_true_eq_false, decide_false, Bool.false_eq_true, ↓reduceIte, bind_assoc, pure_bind]
    refine Triple.pre ?_ (hk _ _ _ (by exact ⟨rfl, by dsimp only; omega, by dsimp only; omega, by dsimp only; omega⟩) hw)
    cancel
  intro β γ K' K c Ψ F Q hw hk
  rw [Algo.unionLoop, both_ne h1 h2] at hw
  rw [unionLoop]
  simp only [bind_assoc] at hw ⊢
  istep
  simp only [ne_eq, h1, not_false_eq_true, decide_true, ↓reduceIte, bind_assoc]
  istep
  simp only [ne_eq, h2, not_false_eq_true, decide_true, ↓reduceIte, bind_assoc]
  istep
  intro b c1 hw
  cases b
  rotate_left
  · simp only [↓reduceIte, bind_assoc] at hw ⊢
    refine room_asg hw (by cancel) fun hlt hw => ?_
    istep
    intro c1 hw
    istep
    istep
    exact (ih _ (by omega) (i := i + 1) (k := k) (a := a + 1) (n := n + 1) (by omega) (by omega) (by omega) rfl).use hw (by cancel) hk
  simp only [Bool.false_eq_true, ↓reduceIte, bind_assoc] at hw ⊢
  istep
  intro b c1 hw
  cases b
  rotate_left
  · simp only [↓reduceIte, bind_assoc] at hw ⊢
    refine room_asg hw (by cancel) fun hlt hw => ?_
    istep
    intro c1 hw
    istep
    istep
    exact (ih _ (by omega) (i := i) (k := k + 1) (a := a + 1) (n := n + 1) (by omega) (by omega) (by omega) rfl).use hw (by cancel) hk
  simp only [Bool.false_eq_true, ↓reduceIte, bind_assoc] at hw ⊢
  refine room_asg hw (by cancel) fun hlt hw => ?_
  istep
  intro c1 hw
  istep
  istep
  istep
  exact (ih _ (by omega) (i := i + 1) (k := k + 1) (a := a + 1) (n := n + 1) (by omega) (by omega) (by omega) rfl).use hw (by cancel) hk

theorem includesLoop_ref (hr : r.Ok True Z S) (hr2 : r2.Ok True Z S) {comp : V → V → Bool} (hij : i ≤ j) (hj : j ≤ r.len) (hkm : k ≤ m) (hm : m ≤ r2.len) :
    RefC (It r f1 i ∗ It r l1 j ∗ It r2 f2 k ∗ It r2 l2 m ∗ S) (includesLoop comp f1 l1 f2 l2) (Algo.includesLoop r.ref r2.ref comp i j k m)
      (fun p _ => p ≤ m) (fun p _ => ∃ₛ i', It r f1 i' ∗ It r l1 j ∗ It r2 f2 p ∗ It r2 l2 m ∗ S) := by
  induction hN : (j - i) + (m - k) using Nat.strongRecOn generalizing i k with | _ N ih => ?_
  by_cases h1 : i = j
  · subst h1
    intro β γ K' K c Ψ F Q hw hk
    rw [Algo.includesLoop, left_eq] at hw
    rw [includesLoop]
    simp only [bind_assoc, pure_bind] at hw ⊢
    istep
    simp only [ne_eq, not_true_eq_false, decide_false, Bool.false_eq_true, ↓reduceIte, bind_assoc, pure_bind]
    refine Triple.pre ?_ (hk _ _ _ (by exact hkm) hw)
    exact sep_mono (ent_refl _) (sep_mono (ent_ex_right i (ent_refl _)) (ent_refl _))
  by_cases h2 : k = m
  · subst h2
    intro β γ K' K c Ψ F Q hw hk
    rw [Algo.includesLoop, right_eq] at hw
    rw [includesLoop]
    simp only [bind_assoc, pure_bind] at hw ⊢
    istep
    simp only [ne_eq, h1, not_false_eq_true, decide_true, ↓reduceIte, bind_assoc]
    istep
    simp only [ne_eq, not_true_eq_false, decide_false, Bool.false_eq_true, ↓reduceIte, bind_assoc, pure_bind]
    refine Triple.pre ?_ (hk _ _ _ (by exact hkm) hw)
    exact sep_mono (ent_refl _) (sep_mono (ent_ex_right i (ent_refl _)) (ent_refl _))
  intro β γ K' K c Ψ F Q hw hk
  rw [Algo.includesLoop, both_ne h1 h2] at hw
  rw [includesLoop]
  simp only [bind_assoc] at hw ⊢
  istep
  simp only [ne_eq, h1, not_false_eq_true, decide_true, ↓reduceIte, bind_assoc]
  istep
  simp only [ne_eq, h2, not_false_eq_true, decide_true, ↓reduceIte, bind_assoc]
  istep
  intro b c1 hw
  cases b
  rotate_left
  · simp only [↓reduceIte, pure_bind] at hw ⊢
    refine Triple.pre ?_ (hk _ _ _ (by exact hkm) hw)
    refine ent_trans (show _ ⊢ₛ Ex c1 ∗ (It r f1 i ∗ It r l1 j ∗ It r2 f2 k ∗ It r2 l2 m ∗ S) ∗ F by cancel) ?_
    exact sep_mono (ent_refl _) (sep_mono (ent_ex_right i (ent_refl _)) (ent_refl _))
  simp only [Bool.false_eq_true, ↓reduceIte, bind_assoc] at hw ⊢
  istep
  intro b c1 hw
  cases b
  · simp only [Bool.false_eq_true, ↓reduceIte, bind_assoc] at hw ⊢
    istep
    istep
    exact (ih _ (by omega) (i := i + 1) (k := k + 1) (by omega) (by omega) rfl).use hw (by cancel) hk
  · simp only [↓reduceIte, bind_assoc] at hw ⊢
    istep
    exact (ih _ (by omega) (i := i + 1) (k := k) (by omega) (by omega) rfl).use hw (by cancel) hk

section
variable (hr : r.Ok True Z S) (hr2 : r2.Ok True Z S) (hij : i ≤ j) (hj : j ≤ r.len) (hkm : k ≤ m) (hm : m ≤ r2.len)
  (h1 : At A r first1 i) (h2 : At A r last1 j) (h3 : At A r2 first2 k) (h4 : At A r2 last2 m)
include hr hr2 hij hj hkm hm h1 h2 h3 h4

theorem includes_ref {comp : V → V → Bool} : RefC (A ∗ S) (IAlgo.includes first1 last1 first2 last2 comp) (Algo.includes r.ref i j r2.ref k m comp) (fun a' a => a = a') (fun _ _ => A ∗ S) := by
  intro β γ K' K c Ψ F Q hw hk
  have hc := cate_ge r.kind
  have hc2 := cate_ge r2.kind
  inz first1 hf0
  inz last1 hl0
  inz first2 hf1
  inz last2 hl1
  unfold Algo.includes at hw
  unfold IAlgo.includes
  simp only [hf0, hl0, hf1, hl1, or_self, ↓reduceIte, bind_assoc] at hw ⊢
  isteps
  by_cases e : k = m
  · simp only [e, decide_true, ↓reduceIte, pure_bind] at hw ⊢
    refine Triple.pre ?_ (hk _ _ _ rfl hw)
    cancel
  · simp only [e, decide_false, Bool.false_eq_true, ↓reduceIte, bind_assoc, pure_bind] at hw ⊢
    isteps
    refine (includesLoop_ref hr hr2 hij hj hkm hm).use hw (by cancel) fun p q c1 hf hw => ?_
    rw [← sep_assoc, sep_comm (Ex c1), sep_assoc]
    refine Triple.ex_left' fun k => ?_
    isteps
    refine Triple.pre ?_ (hk _ _ _ ?_ hw)
    · cancel
    · rw [decide_not, Bool.not_not]; rfl

theorem merge_ref (hr3 : r3.Ok True Z S) (hmt : r3.kind.type < 7) (h5 : At A r3 dFirst a) (ha : a ≤ r3.len) {comp : V → V → Bool} {low : Nat → Nat} (hlow : ∀ q, q ≠ 0 → 2 ≤ low q) (hO : OutOk r3 o A B) :
    RefC (A ∗ S) (IAlgo.merge low first1 last1 first2 last2 dFirst o comp) (Algo.merge r.ref i j r2.ref k m r3.slots a comp) (fun p q => q.1 = p.1 ∧ p.2 ≤ r3.len) (fun p q => B p.2 q.2 ∗ S) := by
  intro β γ K' K c Ψ F Q hw hk
  have hc := cate_ge r.kind
  have hc2 := cate_ge r2.kind
  have hc3 := cate_ge r3.kind
  inz first1 hf0
  inz last1 hl0
  inz first2 hf1
  inz last2 hl1
  inz dFirst hd0
  unfold Algo.merge at hw
  unfold IAlgo.merge
  simp only [hf0, hl0, hf1, hl1, hd0, or_self, ↓reduceIte, bind_assoc, pure_bind] at hw ⊢
  isteps
  refine hO.chk (by omega) (by cancel) ?_
  istep
  istep
  intro f1 _
  istep
  intro l1 _
  istep
  intro f2 _
  istep
  intro l2 _
  istep
  intro d _
  refine (mergeLoop_ref hr hr2 hr3 hij hj hkm hm ha).use hw (by cancel) fun p q c1 hf hw => ?_
  refine (copyRoom_ref (A := It r3 d p.2.2.1 ∗ It r f1 p.1 ∗ It r l1 j) (B := fun b e => ⌜e = d⌝ ∗ It r3 d b ∗ It r f1 p.1 ∗ It r l1 j) hr hr3 (by omega) hj (by at_it) (by at_it) hmt (by at_it) (by omega) hlow
    OutOk.loc).use hw (by cancel) fun p1 q1 c1 hf1 hw => ?_
  rw [← sep_assoc, sep_comm (Ex c1), sep_assoc, sep_assoc, sep_assoc]
  refine Triple.pure_left fun hq => ?_
  simp only [hq]
  refine (copyRoom_ref (A := It r3 d p1.2 ∗ It r2 f2 p.2.1 ∗ It r2 l2 m) (B := fun b e => ⌜e = d⌝ ∗ It r3 d b ∗ It r2 f2 p.2.1 ∗ It r2 l2 m) hr2 hr3 (by omega) hm (by at_it) (by at_it) hmt (by at_it) (by omega) hlow
    OutOk.loc).use hw (by cancel) fun p2 q2 c1 hf2 hw => ?_
  rw [← sep_assoc, sep_comm (Ex c1), sep_assoc, sep_assoc, sep_assoc]
  refine Triple.pure_left fun hq => ?_
  simp only [hq]
  refine hO.set (by cancel) (i := p2.2) (by at_it) fun o => ?_
  isteps
  refine Triple.pre ?_ (hk _ _ _ (by exact ⟨by first | omega | (dsimp only; omega), by first | omega | (dsimp only; omega)⟩) hw)
  cancel

theorem setDifference_ref (hr3 : r3.Ok True Z S) (hmt : r3.kind.type < 7) (h5 : At A r3 dFirst a) (ha : a ≤ r3.len) {comp : V → V → Bool} {low : Nat → Nat} (hlow : ∀ q, q ≠ 0 → 2 ≤ low q) (hO : OutOk r3 o A B) :
    RefC (A ∗ S) (IAlgo.setDifference low first1 last1 first2 last2 dFirst o comp) (Algo.setDifference r.ref i j r2.ref k m r3.slots a comp) (fun p q => q.1 = p.1 ∧ p.2 ≤ r3.len) (fun p q => B p.2 q.2 ∗ S) := by
  intro β γ K' K c Ψ F Q hw hk
  have hc := cate_ge r.kind
  have hc2 := cate_ge r2.kind
  have hc3 := cate_ge r3.kind
  inz first1 hf0
  inz last1 hl0
  inz first2 hf1
  inz last2 hl1
  inz dFirst hd0
  unfold Algo.setDifference at hw
  unfold IAlgo.setDifference
  simp only [hf0, hl0, hf1, hl1, hd0, or_self, ↓reduceIte, bind_assoc, pure_bind] at hw ⊢
  isteps
  refine hO.chk (by omega) (by cancel) ?_
  istep
  istep
  intro f1 _
  istep
  intro l1 _
  istep
  intro f2 _
  istep
  intro l2 _
  istep
  intro d _
  refine (differenceLoop_ref hr hr2 hr3 hij hj hkm hm ha).use hw (by cancel) fun p q c1 hf hw => ?_
  rw [← sep_assoc, sep_comm (Ex c1), sep_assoc]
  refine Triple.ex_left' fun k' => ?_
  refine (copyRoom_ref (A := It r3 d p.2.1 ∗ It r f1 p.1 ∗ It r l1 j) (B := fun b e => ⌜e = d⌝ ∗ It r3 d b ∗ It r f1 p.1 ∗ It r l1 j) hr hr3 (by omega) hj (by at_it) (by at_it) hmt (by at_it) (by omega) hlow
    OutOk.loc).use hw (by cancel) fun p1 q1 c1 hf1 hw => ?_
  rw [← sep_assoc, sep_comm (Ex c1), sep_assoc, sep_assoc, sep_assoc]
  refine Triple.pure_left fun hq => ?_
  simp only [hq]
  refine hO.set (by cancel) (i := p1.2) (by at_it) fun o => ?_
  isteps
  refine Triple.pre ?_ (hk _ _ _ (by exact ⟨by first | omega | (dsimp only; omega), by first | omega | (dsimp only; omega)⟩) hw)
  cancel

theorem setIntersection_ref (hr3 : r3.Ok True Z S) (hmt : r3.kind.type < 7) (h5 : At A r3 dFirst a) (ha : a ≤ r3.len) {comp : V → V → Bool} (hO : OutOk r3 o A B) :
    RefC (A ∗ S) (IAlgo.setIntersection first1 last1 first2 last2 dFirst o comp) (Algo.setIntersection r.ref i j r2.ref k m r3.slots a comp) (fun p q => q.1 = p.1 ∧ p.2 ≤ r3.len) (fun p q => B p.2 q.2 ∗ S) := by
  intro β γ K' K c Ψ F Q hw hk
  have hc := cate_ge r.kind
  have hc2 := cate_ge r2.kind
  have hc3 := cate_ge r3.kind
  inz first1 hf0
  inz last1 hl0
  inz first2 hf1
  inz last2 hl1
  inz dFirst hd0
  unfold Algo.setIntersection at hw
  unfold IAlgo.setIntersection
  simp only [hf0, hl0, hf1, hl1, hd0, or_self, ↓reduceIte, bind_assoc] at hw ⊢
  isteps
  refine hO.chk (by omega) (by cancel) ?_
  istep
  istep
  intro f1 _
  istep
  intro l1 _
  istep
  intro f2 _
  istep
  intro l2 _
  istep
  intro d _
  refine (intersectionLoop_ref hr hr2 hr3 hij hj hkm hm ha).use hw (by cancel) fun p q c1 hf hw => ?_
  rw [← sep_assoc, sep_comm (Ex c1), sep_assoc]
  refine Triple.ex_left' fun i' => ?_
  refine Triple.ex_left' fun k' => ?_
  refine hO.set (by cancel) (i := p.2) (by at_it) fun o => ?_
  isteps
  refine Triple.pre ?_ (hk _ _ _ (by exact ⟨by first | omega | (dsimp only; omega), by first | omega | (dsimp only; omega)⟩) hw)
  cancel

theorem setSymDifference_ref (hr3 : r3.Ok True Z S) (hmt : r3.kind.type < 7) (h5 : At A r3 dFirst a) (ha : a ≤ r3.len) {comp : V → V → Bool} {low : Nat → Nat} (hlow : ∀ q, q ≠ 0 → 2 ≤ low q) (hO : OutOk r3 o A B) :
    RefC (A ∗ S) (IAlgo.setSymDifference low first1 last1 first2 last2 dFirst o comp) (Algo.setSymDifference r.ref i j r2.ref k m r3.slots a comp) (fun p q => q.1 = p.1 ∧ p.2 ≤ r3.len) (fun p q => B p.2 q.2 ∗ S) := by
  intro β γ K' K c Ψ F Q hw hk
  have hc := cate_ge r.kind
  have hc2 := cate_ge r2.kind
  have hc3 := cate_ge r3.kind
  inz first1 hf0
  inz last1 hl0
  inz first2 hf1
  inz last2 hl1
  inz dFirst hd0
  unfold Algo.setSymDifference at hw
  unfold IAlgo.setSymDifference
  simp only [hf0, hl0, hf1, hl1, hd0, or_self, ↓reduceIte, bind_assoc, pure_bind] at hw ⊢
  isteps
  refine hO.chk (by omega) (by cancel) ?_
  istep
  istep
  intro f1 _
  istep
  intro l1 _
  istep
  intro f2 _
  istep
  intro l2 _
  istep
  intro d _
  refine (symDifferenceLoop_ref hr hr2 hr3 hij hj hkm hm ha).use hw (by cancel) fun p q c1 hf hw => ?_
  refine (copyRoom_ref (A := It r3 d p.2.2.1 ∗ It r f1 p.1 ∗ It r l1 j) (B := fun b e => ⌜e = d⌝ ∗ It r3 d b ∗ It r f1 p.1 ∗ It r l1 j) hr hr3 (by omega) hj (by at_it) (by at_it) hmt (by at_it) (by omega) hlow
    OutOk.loc).use hw (by cancel) fun p1 q1 c1 hf1 hw => ?_
  rw [← sep_assoc, sep_comm (Ex c1), sep_assoc, sep_assoc, sep_assoc]
  refine Triple.pure_left fun hq => ?_
  simp only [hq]
  refine (copyRoom_ref (A := It r3 d p1.2 ∗ It r2 f2 p.2.1 ∗ It r2 l2 m) (B := fun b e => ⌜e = d⌝ ∗ It r3 d b ∗ It r2 f2 p.2.1 ∗ It r2 l2 m) hr2 hr3 (by omega) hm (by at_it) (by at_it) hmt (by at_it) (by omega) hlow
    OutOk.loc).use hw (by cancel) fun p2 q2 c1 hf2 hw => ?_
  rw [← sep_assoc, sep_comm (Ex c1), sep_assoc, sep_assoc, sep_assoc]
  refine Triple.pure_left fun hq => ?_
  simp only [hq]
  refine hO.set (by cancel) (i := p2.2) (by at_it) fun o => ?_
  isteps
  refine Triple.pre ?_ (hk _ _ _ (by exact ⟨by first | omega | (dsimp only; omega), by first | omega | (dsimp only; omega)⟩) hw)
  cancel

theorem setUnion_ref (hr3 : r3.Ok True Z S) (hmt : r3.kind.type < 7) (h5 : At A r3 dFirst a) (ha : a ≤ r3.len) {comp : V → V → Bool} {low : Nat → Nat} (hlow : ∀ q, q ≠ 0 → 2 ≤ low q) (hO : OutOk r3 o A B) :
    RefC (A ∗ S) (IAlgo.setUnion low first1 last1 first2 last2 dFirst o comp) (Algo.setUnion r.ref i j r2.ref k m r3.slots a comp) (fun p q => q.1 = p.1 ∧ p.2 ≤ r3.len) (fun p q => B p.2 q.2 ∗ S) := by
  intro β γ K' K c Ψ F Q hw hk
  have hc := cate_ge r.kind
  have hc2 := cate_ge r2.kind
  have hc3 := cate_ge r3.kind
  inz first1 hf0
  inz last1 hl0
  inz first2 hf1
  inz last2 hl1
  inz dFirst hd0
  unfold Algo.setUnion at hw
  unfold IAlgo.setUnion
  simp only [hf0, hl0, hf1, hl1, hd0, or_self, ↓reduceIte, bind_assoc, pure_bind] at hw ⊢
  isteps
  refine hO.chk (by omega) (by cancel) ?_
  istep
  istep
  intro f1 _
  istep
  intro l1 _
  istep
  intro f2 _
  istep
  intro l2 _
  istep
  intro d _
  refine (unionLoop_ref hr hr2 hr3 hij hj hkm hm ha).use hw (by cancel) fun p q c1 hf hw => ?_
  refine (copyRoom_ref (A := It r3 d p.2.2.1 ∗ It r f1 p.1 ∗ It r l1 j) (B := fun b e => ⌜e = d⌝ ∗ It r3 d b ∗ It r f1 p.1 ∗ It r l1 j) hr hr3 (by omega) hj (by at_it) (by at_it) hmt (by at_it) (by omega) hlow
    OutOk.loc).use hw (by cancel) fun p1 q1 c1 hf1 hw => ?_
  rw [← sep_assoc, sep_comm (Ex c1), sep_assoc, sep_assoc, sep_assoc]
  refine Triple.pure_left fun hq => ?_
  simp only [hq]
  refine (copyRoom_ref (A := It r3 d p1.2 ∗ It r2 f2 p.2.1 ∗ It r2 l2 m) (B := fun b e => ⌜e = d⌝ ∗ It r3 d b ∗ It r2 f2 p.2.1 ∗ It r2 l2 m) hr2 hr3 (by omega) hm (by at_it) (by at_it) hmt (by at_it) (by omega) hlow
    OutOk.loc).use hw (by cancel) fun p2 q2 c1 hf2 hw => ?_
  rw [← sep_assoc, sep_comm (Ex c1), sep_assoc, sep_assoc, sep_assoc]
  refine Triple.pure_left fun hq => ?_
  simp only [hq]
  refine hO.set (by cancel) (i := p2.2) (by at_it) fun o => ?_
  isteps
  refine Triple.pre ?_ (hk _ _ _ (by exact ⟨by first | omega | (dsimp only; omega), by first | omega | (dsimp only; omega)⟩) hw)
  cancel

end

end CC.IAlgo
