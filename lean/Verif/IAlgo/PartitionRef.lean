import Verif.IAlgo.NonModRef
import Verif.IAlgo.Partition
import Verif.Algo.Partition
/-!
# `algorithm/c_partitioning.c` on iterator objects does what the programs on positions do
-/
namespace CC.IAlgo
open CC CC.Tac CC.Iter CC.Algo
variable {V α β γ : Type} {Z : Nat → Nat} {S A P F R : HProp V} {r r2 r3 : Src V} {x y i j k n a b f l f2 l2 m m2 first last first2 last2 : Nat} {o o2 : Out} {B : Nat → Nat → HProp V}

/-- the loops that skip the leading elements with the property are the same -/
theorem skipTrue_scan (c : Slots) (pred : V → Bool) (hij : i ≤ j) : Algo.skipTrue c pred i j = Algo.scan (fun k => Algo.test pred (c k)) i j := by
  induction hn : j - i generalizing i with
  | zero =>
    obtain rfl : i = j := by omega
    rw [Algo.skipTrue, Algo.scan]
    simp
  | succ N ih =>
    rw [Algo.skipTrue, Algo.scan, if_pos (by omega), if_pos (by omega)]
    refine congrArg _ (funext fun b => ?_)
    cases b
    · rfl
    · exact ih (by omega) (by omega)

theorem noneTrue_ref (hr : r.Ok True Z S) {pred : V → Bool} (hij : i ≤ j) (hj : j ≤ r.len) :
    RefC (It r f i ∗ It r l j ∗ S) (noneTrue pred f l) (Algo.noneTrue r.ref pred i j) (fun q' q => q = q') (fun _ _ => ∃ₛ k, It r f k ∗ It r l j ∗ S) := by
  induction hn : j - i generalizing i with
  | zero =>
    obtain rfl : i = j := by omega
    intro β γ K' K c Ψ F Q hw hk
    rw [Algo.noneTrue] at hw
    rw [noneTrue]
    simp only [ne_eq, not_true_eq_false, ↓reduceIte, bind_assoc, pure_bind] at hw ⊢
    istep
    simp only [ne_eq, not_true_eq_false, decide_false, Bool.false_eq_true, ↓reduceIte, bind_assoc, pure_bind]
    refine Triple.pre ?_ (hk _ _ _ rfl hw)
    exact sep_mono (ent_refl _) (sep_mono (ent_ex_right i (ent_refl _)) (ent_refl _))
  | succ N ih =>
    intro β γ K' K c Ψ F Q hw hk
    rw [Algo.noneTrue] at hw
    rw [noneTrue]
    have h1 : i ≠ j := by omega
    simp only [ne_eq, h1, not_false_eq_true, ↓reduceIte, bind_assoc] at hw ⊢
    istep
    simp only [ne_eq, h1, not_false_eq_true, decide_true, ↓reduceIte, bind_assoc]
    istep
    intro b c1 hw
    cases b
    · simp only [Bool.false_eq_true, ↓reduceIte, bind_assoc] at hw ⊢
      istep
      refine (ih (i := i + 1) (by omega) (by omega)).use hw (by cancel) fun k' _ c1 hf hw => ?_
      exact hk _ _ _ hf hw
    · simp only [↓reduceIte, pure_bind] at hw ⊢
      refine Triple.pre ?_ (hk _ _ _ rfl hw)
      refine ent_trans (show _ ⊢ₛ Ex c1 ∗ (It r f i ∗ It r l j ∗ S) ∗ F by cancel) ?_
      exact sep_mono (ent_refl _) (sep_mono (ent_ex_right i (ent_refl _)) (ent_refl _))

theorem partitionLoop_ref (hr : r.Ok True Z S) (hn : r.Real S) (hm : r.kind.type < 7) {pred : V → Bool} (hki : k < i) (hij : i ≤ j) (hj : j ≤ r.len) :
    RefC (It r f k ∗ It r n i ∗ It r l j ∗ S) (partitionLoop pred f n l) (Algo.partitionLoop r.ref pred k i j) (fun k _ => k ≤ j) (fun k _ => It r f k ∗ It r n j ∗ It r l j ∗ S) := by
  induction hN : j - i generalizing i k with
  | zero =>
    obtain rfl : i = j := by omega
    intro β γ K' K c Ψ F Q hw hk
    rw [Algo.partitionLoop] at hw
    rw [partitionLoop]
    simp only [ne_eq, not_true_eq_false, ↓reduceIte, bind_assoc, pure_bind] at hw ⊢
    istep
    simp only [ne_eq, not_true_eq_false, decide_false, Bool.false_eq_true, ↓reduceIte, bind_assoc, pure_bind]
    refine Triple.pre ?_ (hk _ _ _ (by omega) hw)
    cancel
  | succ N ih =>
    intro β γ K' K c Ψ F Q hw hk
    rw [Algo.partitionLoop] at hw
    rw [partitionLoop]
    have h1 : i ≠ j := by omega
    simp only [ne_eq, h1, not_false_eq_true, ↓reduceIte, bind_assoc] at hw ⊢
    istep
    simp only [ne_eq, h1, not_false_eq_true, decide_true, ↓reduceIte, bind_assoc]
    istep
    intro b c1 hw
    cases b
    · simp only [Bool.false_eq_true, ↓reduceIte, bind_assoc, pure_bind] at hw ⊢
      istep
      refine (ih (i := i + 1) (k := k) (by omega) (by omega) (by omega)).use hw (by cancel) fun k' _ c1 hf hw => ?_
      exact hk _ _ _ hf hw
    · simp only [↓reduceIte, bind_assoc, pure_bind] at hw ⊢
      istep
      intro c1 hw
      istep
      istep
      refine (ih (i := i + 1) (k := k + 1) (by omega) (by omega) (by omega)).use hw (by cancel) fun k' _ c1 hf hw => ?_
      exact hk _ _ _ hf hw

/-- (there is room in the destinations for what is written) -/
theorem partitionCopyLoop_ref (hr : r.Ok True Z S) (hr2 : r2.Ok True Z S) (hr3 : r3.Ok True Z S) {pred : V → Bool} (hij : i ≤ j) (hj : j ≤ r.len) (ha : a ≤ r2.len) (hb : b ≤ r3.len) :
    RefC (It r f i ∗ It r l j ∗ It r2 f2 a ∗ It r3 l2 b ∗ S) (partitionCopyLoop pred f l f2 l2 n) (Algo.partitionCopyLoop r.ref r2.slots r3.slots pred i j a b n)
      (fun p q => q = p.1 ∧ p.2.1 ≤ r2.len ∧ p.2.2 ≤ r3.len) (fun p _ => It r f j ∗ It r l j ∗ It r2 f2 p.2.1 ∗ It r3 l2 p.2.2 ∗ S) := by
  induction hN : j - i generalizing i a b n with
  | zero =>
    obtain rfl : i = j := by omega
    intro β γ K' K c Ψ F Q hw hk
    rw [Algo.partitionCopyLoop] at hw
    rw [partitionCopyLoop]
    simp only [ne_eq, not_true_eq_false, ↓reduceIte, bind_assoc, pure_bind] at hw ⊢
    istep
    simp only [ne_eq, not_true_eq_false, decide_false, Bool.false_eq_true, ↓reduceIte, bind_assoc, pure_bind]
    refine Triple.pre ?_ (hk _ _ _ (by exact ⟨rfl, by dsimp only; omega, by dsimp only; omega⟩) hw)
    cancel
  | succ N ih =>
    intro β γ K' K c Ψ F Q hw hk
    rw [Algo.partitionCopyLoop] at hw
    rw [partitionCopyLoop]
    have h1 : i ≠ j := by omega
    simp only [ne_eq, h1, not_false_eq_true, ↓reduceIte, bind_assoc] at hw ⊢
    istep
    simp only [ne_eq, h1, not_false_eq_true, decide_true, ↓reduceIte, bind_assoc]
    istep
    intro b c1 hw
    cases b
    · simp only [Bool.false_eq_true, ↓reduceIte, bind_assoc, pure_bind] at hw ⊢
      refine room_asg hw (by cancel) fun hlt hw => ?_
      istep
      intro c1 hw
      istep
      istep
      refine (ih (i := i + 1) (a := a) (b := _ + 1) (n := n + 1) (by omega) (by omega) (by omega) (by omega)).use hw (by cancel) fun k' _ c1 hf hw => ?_
      exact hk _ _ _ hf hw
    · simp only [↓reduceIte, bind_assoc, pure_bind] at hw ⊢
      refine room_asg hw (by cancel) fun hlt hw => ?_
      istep
      intro c1 hw
      istep
      istep
      refine (ih (i := i + 1) (a := a + 1) (b := _) (n := n + 1) (by omega) (by omega) (by omega) (by omega)).use hw (by cancel) fun k' _ c1 hf hw => ?_
      exact hk _ _ _ hf hw

section
variable (hr : r.Ok True Z S) (hij : i ≤ j) (hj : j ≤ r.len) (h1 : At A r first i) (h2 : At A r last j)
include hr hij hj h1 h2

theorem isPartitioned_ref {pred : V → Bool} :
    RefC (A ∗ S) (IAlgo.isPartitioned first last pred) (Algo.isPartitioned r.ref i j pred) (fun a' a => a = a') (fun _ _ => A ∗ S) := by
  intro β γ K' K c Ψ F Q hw hk
  have hc := cate_ge r.kind
  inz first hf0
  inz last hl0
  unfold Algo.isPartitioned at hw
  unfold IAlgo.isPartitioned
  rw [skipTrue_scan _ _ hij] at hw
  simp only [hf0, hl0, or_self, ↓reduceIte, bind_assoc] at hw ⊢
  isteps
  by_cases e : i = j
  · simp only [e, decide_true, ↓reduceIte, pure_bind] at hw ⊢
    refine Triple.pre ?_ (hk _ _ _ rfl hw)
    cancel
  · simp only [e, decide_false, Bool.false_eq_true, ↓reduceIte, bind_assoc, pure_bind] at hw ⊢
    isteps
    refine (scan_ref hr (CondOk.test hr) hij hj).use hw (by cancel) fun k _ c1 hf hw => ?_
    refine (noneTrue_ref hr hf.2 hj).use hw (by cancel) fun k q c1 hf hw => ?_
    rw [← sep_assoc, sep_comm (Ex c1), sep_assoc]
    refine Triple.ex_left' fun k => ?_
    isteps
    refine Triple.pre ?_ (hk _ _ _ hf hw)
    cancel

theorem partition_ref (hn : r.Real S) (hm : r.kind.type < 7) {pred : V → Bool} (hO : OutOk r o A B) :
    RefC (A ∗ S) (IAlgo.partition first last o pred) (Algo.partition r.ref i j pred) (fun k _ => k ≤ j) (fun k a => B k a ∗ S) := by
  intro β γ K' K c Ψ F Q hw hk
  have hc := cate_ge r.kind
  inz first hf0
  inz last hl0
  unfold Algo.partition at hw
  unfold IAlgo.partition
  simp only [hf0, hl0, or_self, ↓reduceIte, bind_assoc] at hw ⊢
  istep
  istep
  refine hO.chk (by omega) (by cancel) ?_
  istep
  istep
  intro f _
  istep
  intro l _
  refine (findIfNot_ref (A := It r f i ∗ It r l j) (B := fun i a => ⌜a = f⌝ ∗ It r f i ∗ It r l j) hr hij hj (by at_it) (by at_it) OutOk.loc).use hw (by cancel) fun p q c1 hf hw => ?_
  obtain ⟨_, h3, h4, h5⟩ := hf
  rw [← sep_assoc, sep_comm (Ex c1), sep_assoc, sep_assoc, sep_assoc]
  refine Triple.pure_left fun hq => ?_
  simp only [hq]
  istep
  by_cases e : p.2 = j
  · simp only [e, ne_eq, not_true_eq_false, decide_false, Bool.false_eq_true, ↓reduceIte, pure_bind] at hw ⊢
    refine hO.set (by cancel) (i := j) (by at_it) fun o => ?_
    isteps
    refine Triple.pre ?_ (hk _ _ _ (by omega) hw)
    cancel
  · simp only [e, ne_eq, not_false_eq_true, decide_true, ↓reduceIte, bind_assoc] at hw ⊢
    istep
    intro nx _
    istep
    refine (partitionLoop_ref hr hn hm (by omega) (by omega) hj).use hw (by cancel) fun k q c1 hf hw => ?_
    istep
    refine hO.set (by cancel) (i := k) (by at_it) fun o => ?_
    isteps
    refine Triple.pre ?_ (hk _ _ _ hf hw)
    cancel

theorem partitionPoint_ref {pred : V → Bool} (hO : OutOk r o A B) (ho : o.isNull = false) :
    RefC (A ∗ S) (IAlgo.partitionPoint first last o pred) (Algo.partitionPoint r.ref i j pred) (fun k _ => i ≤ k ∧ k ≤ j) (fun k a => B k a ∗ S) := by
  intro β γ K' K c Ψ F Q hw hk
  have hc := cate_ge r.kind
  inz first hf0
  inz last hl0
  unfold Algo.partitionPoint at hw
  unfold IAlgo.partitionPoint
  rw [skipTrue_scan _ _ hij] at hw
  simp only [hf0, hl0, ho, Bool.false_eq_true, or_self, ↓reduceIte, bind_assoc] at hw ⊢
  isteps
  refine hO.chk (by omega) (by cancel) ?_
  isteps
  refine (scan_ref hr (CondOk.test hr) hij hj).use hw (by cancel) fun k _ c1 hf hw => ?_
  refine hO.set (by cancel) (i := k) (by at_it) fun o => ?_
  isteps
  refine Triple.pre ?_ (hk _ _ _ hf hw)
  cancel

theorem partitionCopy_ref (hr2 : r2.Ok True Z S) (hr3 : r3.Ok True Z S) (ha : a ≤ r2.len) (hb : b ≤ r3.len) (h3 : At A r2 first2 a) (h4 : At A r3 last2 b)
    (hm : r2.kind.type < 7) (hm3 : r3.kind.type < 7) {pred : V → Bool} {B2 : Nat → Nat → Nat → Nat → HProp V} (hO : OutOk r2 o A B) (hC2 : OutChk r3 o2 A)
    (hO2 : ∀ k q, OutOk r3 o2 (B k q) (B2 k q)) :
    RefC (A ∗ S) (IAlgo.partitionCopy first last first2 last2 o o2 pred) (Algo.partitionCopy r.ref i j r2.slots a r3.slots b pred)
      (fun p q => q.1 = p.1 ∧ p.2.1 ≤ r2.len ∧ p.2.2 ≤ r3.len) (fun p q => B2 p.2.1 q.2.1 p.2.2 q.2.2 ∗ S) := by
  intro β γ K' K c Ψ F Q hw hk
  have hc := cate_ge r.kind
  have hc2 := cate_ge r2.kind
  have hc3 := cate_ge r3.kind
  inz first hf0
  inz last hl0
  inz first2 hf1
  inz last2 hl1
  unfold Algo.partitionCopy at hw
  unfold IAlgo.partitionCopy
  simp only [hf0, hl0, hf1, hl1, or_self, ↓reduceIte, bind_assoc] at hw ⊢
  isteps
  refine hO.chk (by omega) (by cancel) ?_
  refine hC2.chk (by omega) (by cancel) ?_
  isteps
  refine (partitionCopyLoop_ref hr hr2 hr3 hij hj ha hb).use hw (by cancel) fun p q c1 hf hw => ?_
  refine hO.set (by cancel) (i := p.2.1) (by at_it) fun o => ?_
  refine (hO2 _ _).set (by cancel) (i := p.2.2) (by at_it) fun o => ?_
  isteps
  simp only [pure_bind]
  refine Triple.pre ?_ (hk _ _ _ hf hw)
  cancel

end

end CC.IAlgo
