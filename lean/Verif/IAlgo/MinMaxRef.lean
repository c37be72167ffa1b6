import Verif.IAlgo.NonModRef
import Verif.IAlgo.MinMax
import Verif.Algo.MinMax
/-!
# `algorithm/c_min_max.c` on iterator objects does what the programs on positions do
-/
namespace CC.IAlgo
open CC CC.Tac CC.Iter CC.Algo
variable {V α β γ : Type} {Z : Nat → Nat} {S A P F R : HProp V} {r r2 : Src V} {x y i j k n a b f l f2 l2 m m2 first last first2 last2 : Nat} {o o2 : Out} {B : Nat → Nat → HProp V}

theorem maxLoop_ref (hr : r.Ok True Z S) {comp : V → V → Bool} (hij : i ≤ j) (hj : j ≤ r.len) (hk : k ≤ i) :
    RefC (It r m k ∗ It r f i ∗ It r l j ∗ S) (extLoop (fun best cur => cmpAt comp best cur) m f l) (Algo.extLoop (fun best cur => Algo.cmp comp (r.ref best) (r.ref cur)) k i j)
      (fun k' _ => k' ≤ j) (fun k' _ => It r m k' ∗ It r f j ∗ It r l j ∗ S) := by
  induction hn : j - i generalizing i k with
  | zero =>
    obtain rfl : i = j := by omega
    intro β γ K' K c Ψ F Q hw hk
    rw [Algo.extLoop] at hw
    rw [extLoop]
    simp only [ne_eq, not_true_eq_false, ↓reduceIte, bind_assoc, pure_bind] at hw ⊢
    istep
    simp only [ne_eq, not_true_eq_false, decide_false, Bool.false_eq_true, ↓reduceIte, bind_assoc, pure_bind]
    refine Triple.pre ?_ (hk _ _ _ (by omega) hw)
    cancel
  | succ n ih =>
    intro β γ K' K c Ψ F Q hw hk
    rw [Algo.extLoop] at hw
    rw [extLoop]
    have h1 : i ≠ j := by omega
    simp only [ne_eq, h1, not_false_eq_true, ↓reduceIte, bind_assoc] at hw ⊢
    istep
    simp only [ne_eq, h1, not_false_eq_true, decide_true, ↓reduceIte, bind_assoc]
    istep
    istep
    by_cases h2 : i + 1 = j
    · simp only [h2, not_true_eq_false, decide_false, Bool.false_eq_true, ne_eq, ↓reduceIte] at hw ⊢
      refine (ih (i := j) (k := k) (by omega) (by omega) (by omega)).use hw (by cancel) fun k' _ c1 hf hw => ?_
      exact hk _ _ _ hf hw
    · simp only [h2, not_false_eq_true, decide_true, ne_eq, ↓reduceIte, bind_assoc] at hw ⊢
      istep
      intro b c1 hw
      cases b
      · simp only [Bool.false_eq_true, ↓reduceIte] at hw ⊢
        refine (ih (i := i + 1) (k := k) (by omega) (by omega) (by omega)).use hw (by cancel) fun k' _ c1 hf hw => ?_
        exact hk _ _ _ hf hw
      · simp only [↓reduceIte, bind_assoc] at hw ⊢
        istep
        refine (ih (i := i + 1) (k := i + 1) (by omega) (by omega) (by omega)).use hw (by cancel) fun k' _ c1 hf hw => ?_
        exact hk _ _ _ hf hw

theorem minLoop_ref (hr : r.Ok True Z S) {comp : V → V → Bool} (hij : i ≤ j) (hj : j ≤ r.len) (hk : k ≤ i) :
    RefC (It r m k ∗ It r f i ∗ It r l j ∗ S) (extLoop (fun best cur => cmpAt comp cur best) m f l) (Algo.extLoop (fun best cur => Algo.cmp comp (r.ref cur) (r.ref best)) k i j)
      (fun k' _ => k' ≤ j) (fun k' _ => It r m k' ∗ It r f j ∗ It r l j ∗ S) := by
  induction hn : j - i generalizing i k with
  | zero =>
    obtain rfl : i = j := by omega
    intro β γ K' K c Ψ F Q hw hk
    rw [Algo.extLoop] at hw
    rw [extLoop]
    simp only [ne_eq, not_true_eq_false, ↓reduceIte, bind_assoc, pure_bind] at hw ⊢
    istep
    simp only [ne_eq, not_true_eq_false, decide_false, Bool.false_eq_true, ↓reduceIte, bind_assoc, pure_bind]
    refine Triple.pre ?_ (hk _ _ _ (by omega) hw)
    cancel
  | succ n ih =>
    intro β γ K' K c Ψ F Q hw hk
    rw [Algo.extLoop] at hw
    rw [extLoop]
    have h1 : i ≠ j := by omega
    simp only [ne_eq, h1, not_false_eq_true, ↓reduceIte, bind_assoc] at hw ⊢
    istep
    simp only [ne_eq, h1, not_false_eq_true, decide_true, ↓reduceIte, bind_assoc]
    istep
    istep
    by_cases h2 : i + 1 = j
    · simp only [h2, not_true_eq_false, decide_false, Bool.false_eq_true, ne_eq, ↓reduceIte] at hw ⊢
      refine (ih (i := j) (k := k) (by omega) (by omega) (by omega)).use hw (by cancel) fun k' _ c1 hf hw => ?_
      exact hk _ _ _ hf hw
    · simp only [h2, not_false_eq_true, decide_true, ne_eq, ↓reduceIte, bind_assoc] at hw ⊢
      istep
      intro b c1 hw
      cases b
      · simp only [Bool.false_eq_true, ↓reduceIte] at hw ⊢
        refine (ih (i := i + 1) (k := k) (by omega) (by omega) (by omega)).use hw (by cancel) fun k' _ c1 hf hw => ?_
        exact hk _ _ _ hf hw
      · simp only [↓reduceIte, bind_assoc] at hw ⊢
        istep
        refine (ih (i := i + 1) (k := i + 1) (by omega) (by omega) (by omega)).use hw (by cancel) fun k' _ c1 hf hw => ?_
        exact hk _ _ _ hf hw

theorem minmaxLoop_ref (hr : r.Ok True Z S) {comp : V → V → Bool} (hij : i ≤ j) (hj : j ≤ r.len) (hk : k ≤ i) (hn : n ≤ i) :
    RefC (It r m k ∗ It r m2 n ∗ It r f i ∗ It r l j ∗ S) (minmaxLoop comp m m2 f l) (Algo.minmaxLoop r.ref comp k n i j)
      (fun k' _ => k'.1 ≤ j ∧ k'.2 ≤ j) (fun k' _ => It r m k'.1 ∗ It r m2 k'.2 ∗ It r f j ∗ It r l j ∗ S) := by
  induction hn : j - i generalizing i k n with
  | zero =>
    obtain rfl : i = j := by omega
    intro β γ K' K c Ψ F Q hw hk
    rw [Algo.minmaxLoop] at hw
    rw [minmaxLoop]
    simp only [ne_eq, not_true_eq_false, ↓reduceIte, bind_assoc, pure_bind] at hw ⊢
    istep
    simp only [ne_eq, not_true_eq_false, decide_false, Bool.false_eq_true, ↓reduceIte, bind_assoc, pure_bind]
    refine Triple.pre ?_ (hk _ _ _ (by exact ⟨by omega, by omega⟩) hw)
    cancel
  | succ N ih =>
    intro β γ K' K c Ψ F Q hw hk
    rw [Algo.minmaxLoop] at hw
    rw [minmaxLoop]
    have h1 : i ≠ j := by omega
    simp only [ne_eq, h1, not_false_eq_true, ↓reduceIte, bind_assoc] at hw ⊢
    istep
    simp only [ne_eq, h1, not_false_eq_true, decide_true, ↓reduceIte, bind_assoc]
    istep
    istep
    by_cases h2 : i + 1 = j
    · simp only [h2, not_true_eq_false, decide_false, Bool.false_eq_true, ne_eq, ↓reduceIte] at hw ⊢
      refine (ih (i := j) (k := k) (n := n) (by omega) (by omega) (by omega) (by omega)).use hw (by cancel) fun k' _ c1 hf hw => ?_
      exact hk _ _ _ hf hw
    · simp only [h2, not_false_eq_true, decide_true, ne_eq, ↓reduceIte, bind_assoc] at hw ⊢
      istep
      intro b1 c1 hw
      have e1 : ∃ k1, k1 = (if b1 = true then i + 1 else k) := ⟨_, rfl⟩
      obtain ⟨k1, e1⟩ := e1
      have hb : Triple True (It r m k1 ∗ It r m2 n ∗ It r f (i + 1) ∗ It r l j ∗ S ∗ Ex c1 ∗ F) (cmpAt comp m2 f >>= fun b => (if b = true then cAssign m2 f >>= fun _ => pure () else pure ()) >>= fun _ =>
          minmaxLoop comp m m2 f l >>= K) Q := by
        rw [← e1] at hw
        istep
        intro b2 c1 hw
        cases b2
        · simp only [Bool.false_eq_true, ↓reduceIte, pure_bind] at hw ⊢
          refine (ih (i := i + 1) (k := k1) (n := n) (by omega) (by split at e1 <;> omega) (by omega) (by omega)).use hw (by cancel) fun k' _ c1 hf hw => ?_
          exact hk _ _ _ hf hw
        · simp only [↓reduceIte, bind_assoc, pure_bind] at hw ⊢
          istep
          refine (ih (i := i + 1) (k := k1) (n := i + 1) (by omega) (by split at e1 <;> omega) (by omega) (by omega)).use hw (by cancel) fun k' _ c1 hf hw => ?_
          exact hk _ _ _ hf hw
      cases b1
      · simp only [Bool.false_eq_true, ↓reduceIte, pure_bind] at e1 ⊢
        rw [e1] at hb
        refine Triple.pre ?_ hb
        cancel
      · simp only [↓reduceIte, bind_assoc, pure_bind] at e1 ⊢
        rw [e1] at hb
        istep
        refine Triple.pre ?_ hb
        cancel

section
variable (hr : r.Ok True Z S) (hij : i ≤ j) (hj : j ≤ r.len) (h1 : At A r first i) (h2 : At A r last j)
include hr hij hj h1 h2

theorem maxElement_ref {comp : V → V → Bool} (hO : OutOk r o A B) (ho : o.isNull = false) :
    RefC (A ∗ S) (IAlgo.maxElement first last o comp) (Algo.maxElement r.ref i j comp) (fun k _ => k ≤ j) (fun k a => B k a ∗ S) := by
  intro β γ K' K c Ψ F Q hw hk
  have hc := cate_ge r.kind
  inz first hf0
  inz last hl0
  unfold Algo.maxElement at hw
  unfold IAlgo.maxElement
  simp only [hf0, hl0, ho, Bool.false_eq_true, or_self, ↓reduceIte, bind_assoc, pure_bind] at hw ⊢
  isteps
  refine hO.chk (by omega) (by cancel) ?_
  isteps
  refine (maxLoop_ref (k := i) hr hij hj (by omega)).use hw (by cancel) fun m _ c1 hf hw => ?_
  refine hO.set (by cancel) (i := m) (by at_it) fun o => ?_
  isteps
  refine Triple.pre ?_ (hk _ _ _ hf hw)
  cancel

theorem minElement_ref {comp : V → V → Bool} (hO : OutOk r o A B) (ho : o.isNull = false) :
    RefC (A ∗ S) (IAlgo.minElement first last o comp) (Algo.minElement r.ref i j comp) (fun k _ => k ≤ j) (fun k a => B k a ∗ S) := by
  intro β γ K' K c Ψ F Q hw hk
  have hc := cate_ge r.kind
  inz first hf0
  inz last hl0
  unfold Algo.minElement at hw
  unfold IAlgo.minElement
  simp only [hf0, hl0, ho, Bool.false_eq_true, or_self, ↓reduceIte, bind_assoc, pure_bind] at hw ⊢
  isteps
  refine hO.chk (by omega) (by cancel) ?_
  isteps
  refine (minLoop_ref (k := i) hr hij hj (by omega)).use hw (by cancel) fun m _ c1 hf hw => ?_
  refine hO.set (by cancel) (i := m) (by at_it) fun o => ?_
  isteps
  refine Triple.pre ?_ (hk _ _ _ hf hw)
  cancel

theorem minmaxElement_ref {comp : V → V → Bool} {B2 : Nat → Nat → Nat → Nat → HProp V} (hO : OutOk r o A B) (ho : o.isNull = false) (hC2 : OutChk r o2 A) (ho2 : o2.isNull = false)
    (hO2 : ∀ k q, OutOk r o2 (B k q) (B2 k q)) :
    RefC (A ∗ S) (IAlgo.minmaxElement first last o o2 comp) (Algo.minmaxElement r.ref i j comp) (fun k _ => k.1 ≤ j ∧ k.2 ≤ j) (fun k a => B2 k.1 a.1 k.2 a.2 ∗ S) := by
  intro β γ K' K c Ψ F Q hw hk
  have hc := cate_ge r.kind
  inz first hf0
  inz last hl0
  unfold Algo.minmaxElement at hw
  unfold IAlgo.minmaxElement
  simp only [hf0, hl0, ho, ho2, Bool.false_eq_true, or_self, ↓reduceIte, bind_assoc, pure_bind] at hw ⊢
  isteps
  refine hO.chk (by omega) (by cancel) ?_
  refine hC2.chk (by omega) (by cancel) ?_
  isteps
  refine (minmaxLoop_ref (k := i) (n := i) hr hij hj (by omega) (by omega)).use hw (by cancel) fun m _ c1 hf hw => ?_
  refine hO.set (by cancel) (i := m.1) (by at_it) fun o => ?_
  refine (hO2 _ _).set (by cancel) (i := m.2) (by at_it) fun o => ?_
  isteps
  refine Triple.pre ?_ (hk _ _ _ hf hw)
  cancel

end

theorem lexLoop_ref (hr : r.Ok True Z S) (hr2 : r2.Ok True Z S) {comp : V → V → Bool} (hij : i ≤ j) (hj : j ≤ r.len) (hab : a ≤ b) (hb : b ≤ r2.len) :
    RefC (It r f i ∗ It r l j ∗ It r2 f2 a ∗ It r2 l2 b ∗ S) (lexLoop comp f l f2 l2) (Algo.lexLoop r.ref r2.ref comp i j a b)
      (fun p q => q = p.1 ∧ p.2.1 ≤ j ∧ p.2.2 ≤ b) (fun p _ => It r f p.2.1 ∗ It r l j ∗ It r2 f2 p.2.2 ∗ It r2 l2 b ∗ S) := by
  induction hn : j - i generalizing i a with
  | zero =>
    obtain rfl : i = j := by omega
    intro β γ K' K c Ψ F Q hw hk
    rw [Algo.lexLoop] at hw
    rw [lexLoop]
    simp only [ne_eq, not_true_eq_false, false_and, ↓reduceIte, bind_assoc, pure_bind] at hw ⊢
    istep
    simp only [not_true_eq_false, decide_false, Bool.false_eq_true, ne_eq, ↓reduceIte, bind_assoc, pure_bind]
    refine Triple.pre ?_ (hk _ _ _ (by exact ⟨rfl, by dsimp only; omega, by dsimp only; omega⟩) hw)
    cancel
  | succ N ih =>
    intro β γ K' K c Ψ F Q hw hk
    rw [Algo.lexLoop] at hw
    rw [lexLoop]
    have h1 : i ≠ j := by omega
    simp only [ne_eq, h1, not_false_eq_true, true_and, bind_assoc] at hw ⊢
    istep
    simp only [ne_eq, h1, not_false_eq_true, decide_true, ↓reduceIte, bind_assoc]
    istep
    by_cases h2 : a = b
    · simp only [h2, not_true_eq_false, decide_false, Bool.false_eq_true, ne_eq, ↓reduceIte, pure_bind] at hw ⊢
      refine Triple.pre ?_ (hk _ _ _ (by exact ⟨rfl, by dsimp only; omega, by dsimp only; omega⟩) hw)
      subst h2
      cancel
    · simp only [h2, not_false_eq_true, decide_true, ne_eq, ↓reduceIte, bind_assoc] at hw ⊢
      istep
      intro b1 c1 hw
      cases b1
      · simp only [Bool.false_eq_true, ↓reduceIte, bind_assoc] at hw ⊢
        istep
        intro b2 c1 hw
        cases b2
        · simp only [Bool.false_eq_true, ↓reduceIte, bind_assoc] at hw ⊢
          istep
          istep
          refine (ih (i := i + 1) (a := a + 1) (by omega) (by omega) (by omega)).use hw (by cancel) fun k' _ c1 hf hw => ?_
          exact hk _ _ _ hf hw
        · simp only [↓reduceIte, pure_bind] at hw ⊢
          refine Triple.pre ?_ (hk _ _ _ (by exact ⟨rfl, by dsimp only; omega, by dsimp only; omega⟩) hw)
          cancel
      · simp only [↓reduceIte, pure_bind] at hw ⊢
        refine Triple.pre ?_ (hk _ _ _ (by exact ⟨rfl, by dsimp only; omega, by dsimp only; omega⟩) hw)
        cancel

theorem lexCompare_ref (hr : r.Ok True Z S) (hr2 : r2.Ok True Z S) (hij : i ≤ j) (hj : j ≤ r.len) (hab : a ≤ b) (hb : b ≤ r2.len) (h1 : At A r first i) (h2 : At A r last j)
    (h3 : At A r2 first2 a) (h4 : At A r2 last2 b) {comp : V → V → Bool} :
    RefC (A ∗ S) (IAlgo.lexCompare first last first2 last2 comp) (Algo.lexCompare r.ref i j r2.ref a b comp) (fun a' a => a = a') (fun _ _ => A ∗ S) := by
  intro β γ K' K c Ψ F Q hw hk
  have hc := cate_ge r.kind
  have hc2 := cate_ge r2.kind
  inz first hf0
  inz last hl0
  inz first2 hf1
  inz last2 hl1
  unfold Algo.lexCompare at hw
  unfold IAlgo.lexCompare
  simp only [hf0, hl0, hf1, hl1, or_self, ↓reduceIte, bind_assoc, pure_bind] at hw ⊢
  isteps
  refine (lexLoop_ref hr hr2 hij hj hab hb).use hw (by cancel) fun p q c1 hf hw => ?_
  obtain ⟨rfl, h5, h6⟩ := hf
  istep
  by_cases e1 : p.2.1 = j
  · simp only [e1, true_and, decide_true, ↓reduceIte] at hw ⊢
    istep
    by_cases e2 : p.2.2 = b
    · simp only [e2, ne_eq, not_true_eq_false, decide_false, Bool.false_eq_true, ↓reduceIte, pure_bind] at hw ⊢
      isteps
      refine Triple.pre ?_ (hk _ _ _ rfl hw)
      cancel
    · simp only [e2, ne_eq, not_false_eq_true, decide_true, ↓reduceIte, pure_bind] at hw ⊢
      isteps
      refine Triple.pre ?_ (hk _ _ _ rfl hw)
      cancel
  · simp only [e1, false_and, decide_false, Bool.false_eq_true, ↓reduceIte, pure_bind] at hw ⊢
    isteps
    refine Triple.pre ?_ (hk _ _ _ rfl hw)
    cancel

end CC.IAlgo
