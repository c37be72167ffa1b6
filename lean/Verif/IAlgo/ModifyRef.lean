import Verif.IAlgo.NonModRef
import Verif.IAlgo.Modify
import Verif.Algo.Modify
/-!
# `algorithm/c_modifying.c` on iterator objects does what the programs on positions do
-/
namespace CC.IAlgo
open CC CC.Tac CC.Iter CC.Algo
variable {V α β γ : Type} {Z : Nat → Nat} {S A P F R : HProp V} {r r2 r3 : Src V} {x y i j k n a b f l d first last dFirst : Nat} {o o2 : Out} {B : Nat → Nat → HProp V}

set_option hygiene false in
/-- the end of a loop -/
macro "lzero " p:ident m:ident : tactic => `(tactic| (
    intro β γ K' K c Ψ F Q hw hk
    rw [$p:ident] at hw
    rw [$m:ident]
    simp only [ne_eq, not_true_eq_false, ↓reduceIte, bind_assoc, pure_bind] at hw ⊢
    istep
    simp only [ne_eq, not_true_eq_false, decide_false, Bool.false_eq_true, ↓reduceIte, bind_assoc, pure_bind]))

set_option hygiene false in
/-- one more round of a loop -/
macro "lsucc " p:ident m:ident h:ident : tactic => `(tactic| (
    intro β γ K' K c Ψ F Q hw hk
    rw [$p:ident] at hw
    rw [$m:ident]
    simp only [ne_eq, $h:ident, not_false_eq_true, ↓reduceIte, bind_assoc] at hw ⊢
    istep
    simp only [ne_eq, $h:ident, not_false_eq_true, decide_true, ↓reduceIte, bind_assoc]))

theorem bidir_ge {k : Kind} (h : k.bidir) : 3 ≤ k.cate := by
  cases k <;> first | decide | exact absurd rfl h

theorem copyLoop_ref (hr : r.Ok True Z S) (hr2 : r2.Ok True Z S) (hij : i ≤ j) (hj : j ≤ r.len) (ha : a + (j - i) ≤ r2.len) :
    RefC (It r f i ∗ It r l j ∗ It r2 d a ∗ S) (copyLoop f l d n) (Algo.copyLoop r.ref r2.ref i j a n)
      (fun p q => q = p.1 ∧ p.2 = a + (j - i)) (fun p _ => It r f j ∗ It r l j ∗ It r2 d p.2 ∗ S) := by
  induction hN : j - i generalizing i a n with
  | zero =>
    obtain rfl : i = j := by omega
    lzero Algo.copyLoop copyLoop
    refine Triple.pre ?_ (hk _ _ _ (by exact ⟨rfl, by dsimp only; omega⟩) hw)
    cancel
  | succ N ih =>
    have h1 : i ≠ j := by omega
    lsucc Algo.copyLoop copyLoop h1
    istep
    intro c1 hw
    istep
    istep
    refine (ih (i := i + 1) (a := a + 1) (n := n + 1) (by omega) (by omega) (by omega)).use hw (by cancel) fun k' _ c1 hf hw => ?_
    exact hk _ _ _ ⟨hf.1, by omega⟩ hw

theorem copyIfLoop_ref (hr : r.Ok True Z S) (hr2 : r2.Ok True Z S) {cond : Addr → M V Bool} {condP : Nat → M V Bool} (hc : CondOk S r cond condP) (hij : i ≤ j) (hj : j ≤ r.len) (ha : a ≤ r2.len) :
    RefC (It r f i ∗ It r l j ∗ It r2 d a ∗ S) (copyIfLoop cond f l d n) (Algo.copyIfLoop condP r.ref r2.slots i j a n)
      (fun p q => q = p.1 ∧ a ≤ p.2 ∧ p.2 ≤ r2.len) (fun p _ => It r f j ∗ It r l j ∗ It r2 d p.2 ∗ S) := by
  induction hN : j - i generalizing i a n with
  | zero =>
    obtain rfl : i = j := by omega
    lzero Algo.copyIfLoop copyIfLoop
    refine Triple.pre ?_ (hk _ _ _ (by exact ⟨rfl, by dsimp only; omega, by dsimp only; omega⟩) hw)
    cancel
  | succ N ih =>
    have h1 : i ≠ j := by omega
    lsucc Algo.copyIfLoop copyIfLoop h1
    refine hc (by omega) (by at_it) hw (by cancel) fun b c1 hw => ?_
    cases b
    · simp only [Bool.false_eq_true, ↓reduceIte, bind_assoc] at hw ⊢
      istep
      refine (ih (i := i + 1) (a := a) (n := n) (by omega) (by omega) (by omega)).use hw (by cancel) fun k' _ c1 hf hw => ?_
      exact hk _ _ _ hf hw
    · simp only [↓reduceIte, bind_assoc] at hw ⊢
      refine room_asg hw (by cancel) fun hlt hw => ?_
      istep
      intro c1 hw
      istep
      istep
      refine (ih (i := i + 1) (a := a + 1) (n := n + 1) (by omega) (by omega) (by omega)).use hw (by cancel) fun k' _ c1 hf hw => ?_
      exact hk _ _ _ ⟨hf.1, by omega, hf.2.2⟩ hw

theorem copyBackwardLoop_ref (hr : r.Ok True Z S) (hr2 : r2.Ok True Z S) (hb : r.kind.bidir) (hb2 : r2.kind.bidir) (hij : i ≤ j) (hj : j ≤ r.len) (ha : j - i ≤ a) (ha2 : a ≤ r2.len) :
    RefC (It r f i ∗ It r l j ∗ It r2 d a ∗ S) (copyBackwardLoop f l d n) (Algo.copyBackwardLoop r.ref r2.ref i j a n)
      (fun p q => q = p.1 ∧ p.2 = a - (j - i)) (fun p _ => It r f i ∗ It r l i ∗ It r2 d p.2 ∗ S) := by
  induction hN : j - i generalizing j a n with
  | zero =>
    obtain rfl : i = j := by omega
    lzero Algo.copyBackwardLoop copyBackwardLoop
    refine Triple.pre ?_ (hk _ _ _ (by exact ⟨rfl, by dsimp only; omega⟩) hw)
    cancel
  | succ N ih =>
    have h1 : j ≠ i := by omega
    lsucc Algo.copyBackwardLoop copyBackwardLoop h1
    have h0 : j ≠ 0 := by omega
    have h2 : a ≠ 0 := by omega
    simp only [Algo.dec, h0, h2, ↓reduceIte, pure_bind] at hw
    istep
    istep
    istep
    intro c1 hw
    refine (ih (j := j - 1) (a := a - 1) (n := n + 1) (by omega) (by omega) (by omega) (by omega) (by omega)).use hw (by cancel) fun k' _ c1 hf hw => ?_
    exact hk _ _ _ ⟨hf.1, by omega⟩ hw

theorem fillLoop_ref (hr : r.Ok True Z S) {value : Loc} (hij : i ≤ j) (hj : j ≤ r.len) :
    RefC (It r f i ∗ It r l j ∗ S) (fillLoop value f l n) (Algo.fillLoop r.ref value i j n) (fun p q => q = p) (fun _ _ => It r f j ∗ It r l j ∗ S) := by
  induction hN : j - i generalizing i n with
  | zero =>
    obtain rfl : i = j := by omega
    lzero Algo.fillLoop fillLoop
    refine Triple.pre ?_ (hk _ _ _ rfl hw)
    cancel
  | succ N ih =>
    have h1 : i ≠ j := by omega
    lsucc Algo.fillLoop fillLoop h1
    istep
    intro c1 hw
    istep
    refine (ih (i := i + 1) (n := n + 1) (by omega) (by omega)).use hw (by cancel) fun k' _ c1 hf hw => ?_
    exact hk _ _ _ hf hw

theorem fillNLoop_ref (hr : r.Ok True Z S) {value : Loc} (hj : i + n ≤ r.len) :
    RefC (It r f i ∗ S) (fillNLoop value f n) (Algo.fillN r.ref i n value) (fun p _ => p = i + n) (fun _ _ => It r f (i + n) ∗ S) := by
  induction n generalizing i with
  | zero =>
    intro β γ K' K c Ψ F Q hw hk
    rw [Algo.fillN] at hw
    rw [fillNLoop]
    simp only [pure_bind] at hw ⊢
    refine Triple.pre ?_ (hk _ _ _ rfl hw)
    cancel
  | succ N ih =>
    intro β γ K' K c Ψ F Q hw hk
    rw [Algo.fillN] at hw
    rw [fillNLoop]
    simp only [bind_assoc] at hw ⊢
    istep
    intro c1 hw
    istep
    refine (ih (i := i + 1) (by omega)).use hw (by cancel) fun k' _ c1 hf hw => ?_
    rw [show i + 1 + N = i + (N + 1) by omega]
    exact hk _ _ _ (by omega) hw

theorem removeLoop_ref (hr : r.Ok True Z S) {cond : Addr → M V Bool} {condP : Nat → M V Bool} (hc : CondOk S r cond condP) (hki : k < i) (hij : i ≤ j) (hj : j ≤ r.len) :
    RefC (It r f k ∗ It r x i ∗ It r l j ∗ S) (removeLoop cond f x l n) (Algo.removeLoop condP r.ref k i j n)
      (fun p q => q = p.1 ∧ k ≤ p.2 ∧ p.2 < j) (fun p _ => It r f p.2 ∗ It r x j ∗ It r l j ∗ S) := by
  induction hN : j - i generalizing i k n with
  | zero =>
    obtain rfl : i = j := by omega
    lzero Algo.removeLoop removeLoop
    refine Triple.pre ?_ (hk _ _ _ (by exact ⟨rfl, by dsimp only; omega, by dsimp only; omega⟩) hw)
    cancel
  | succ N ih =>
    have h1 : i ≠ j := by omega
    lsucc Algo.removeLoop removeLoop h1
    refine hc (by omega) (by at_it) hw (by cancel) fun b c1 hw => ?_
    cases b
    · simp only [Bool.not_false, ↓reduceIte, bind_assoc] at hw ⊢
      istep
      intro c1 hw
      istep
      istep
      refine (ih (i := i + 1) (k := k + 1) (n := n) (by omega) (by omega) (by omega)).use hw (by cancel) fun k' _ c1 hf hw => ?_
      exact hk _ _ _ ⟨hf.1, by omega, hf.2.2⟩ hw
    · simp only [Bool.not_true, Bool.false_eq_true, ↓reduceIte, bind_assoc] at hw ⊢
      istep
      refine (ih (i := i + 1) (k := k) (n := n + 1) (by omega) (by omega) (by omega)).use hw (by cancel) fun k' _ c1 hf hw => ?_
      exact hk _ _ _ hf hw

theorem replaceLoop_ref (hr : r.Ok True Z S) {cond : Addr → M V Bool} {condP : Nat → M V Bool} (hc : CondOk S r cond condP) {new : Loc} (hij : i ≤ j) (hj : j ≤ r.len) :
    RefC (It r f i ∗ It r l j ∗ S) (replaceLoop cond new f l n) (Algo.replaceLoop condP r.ref new i j n) (fun p q => q = p) (fun _ _ => It r f j ∗ It r l j ∗ S) := by
  induction hN : j - i generalizing i n with
  | zero =>
    obtain rfl : i = j := by omega
    lzero Algo.replaceLoop replaceLoop
    refine Triple.pre ?_ (hk _ _ _ rfl hw)
    cancel
  | succ N ih =>
    have h1 : i ≠ j := by omega
    lsucc Algo.replaceLoop replaceLoop h1
    refine hc (by omega) (by at_it) hw (by cancel) fun b c1 hw => ?_
    cases b
    · simp only [Bool.false_eq_true, ↓reduceIte, bind_assoc] at hw ⊢
      istep
      refine (ih (i := i + 1) (n := n) (by omega) (by omega)).use hw (by cancel) fun k' _ c1 hf hw => ?_
      exact hk _ _ _ hf hw
    · simp only [↓reduceIte, bind_assoc] at hw ⊢
      istep
      intro c1 hw
      istep
      refine (ih (i := i + 1) (n := n + 1) (by omega) (by omega)).use hw (by cancel) fun k' _ c1 hf hw => ?_
      exact hk _ _ _ hf hw

theorem replaceCopyLoop_ref (hr : r.Ok True Z S) (hr2 : r2.Ok True Z S) {cond : Addr → M V Bool} {condP : Nat → M V Bool} (hc : CondOk S r cond condP) {new : Loc} (hij : i ≤ j) (hj : j ≤ r.len)
    (ha : a + (j - i) ≤ r2.len) :
    RefC (It r f i ∗ It r l j ∗ It r2 d a ∗ S) (replaceCopyLoop cond new f l d n) (Algo.replaceCopyLoop condP r.ref r2.ref new i j a n)
      (fun p q => q = p.1 ∧ p.2 = a + (j - i)) (fun p _ => It r f j ∗ It r l j ∗ It r2 d p.2 ∗ S) := by
  induction hN : j - i generalizing i a n with
  | zero =>
    obtain rfl : i = j := by omega
    lzero Algo.replaceCopyLoop replaceCopyLoop
    refine Triple.pre ?_ (hk _ _ _ (by exact ⟨rfl, by dsimp only; omega⟩) hw)
    cancel
  | succ N ih =>
    have h1 : i ≠ j := by omega
    lsucc Algo.replaceCopyLoop replaceCopyLoop h1
    refine hc (by omega) (by at_it) hw (by cancel) fun b c1 hw => ?_
    cases b
    · simp only [Bool.false_eq_true, ↓reduceIte, bind_assoc] at hw ⊢
      istep
      intro c1 hw
      istep
      istep
      refine (ih (i := i + 1) (a := a + 1) (n := n + 1) (by omega) (by omega) (by omega)).use hw (by cancel) fun k' _ c1 hf hw => ?_
      exact hk _ _ _ ⟨hf.1, by omega⟩ hw
    · simp only [↓reduceIte, bind_assoc] at hw ⊢
      istep
      intro c1 hw
      istep
      istep
      refine (ih (i := i + 1) (a := a + 1) (n := n + 1) (by omega) (by omega) (by omega)).use hw (by cancel) fun k' _ c1 hf hw => ?_
      exact hk _ _ _ ⟨hf.1, by omega⟩ hw

theorem swapRangeLoop_ref (hr : r.Ok True Z S) (hr2 : r2.Ok True Z S) (hn1 : r.Real S) (hn2 : r2.Real S) (hij : i ≤ j) (hj : j ≤ r.len) (ha : a + (j - i) ≤ r2.len) :
    RefC (It r f i ∗ It r l j ∗ It r2 d a ∗ S) (swapRangeLoop f l d n) (Algo.swapRangeLoop r.ref r2.ref i j a n) (fun p q => q = p)
      (fun _ _ => It r f j ∗ It r l j ∗ It r2 d (a + (j - i)) ∗ S) := by
  induction hN : j - i generalizing i a n with
  | zero =>
    obtain rfl : i = j := by omega
    lzero Algo.swapRangeLoop swapRangeLoop
    refine Triple.pre ?_ (hk _ _ _ rfl hw)
    cancel
  | succ N ih =>
    have h1 : i ≠ j := by omega
    lsucc Algo.swapRangeLoop swapRangeLoop h1
    istep
    intro c1 hw
    istep
    istep
    refine (ih (i := i + 1) (a := a + 1) (n := n + 1) (by omega) (by omega) (by omega)).use hw (by cancel) fun k' _ c1 hf hw => ?_
    rw [show a + 1 + N = a + (N + 1) by omega]
    exact hk _ _ _ hf hw

theorem reverseLoop_ref (hr : r.Ok True Z S) (hn1 : r.Real S) (hb : r.kind.bidir) (hij : i ≤ j) (hj : j ≤ r.len) :
    RefC (It r f i ∗ It r l j ∗ S) (reverseLoop f l n) (Algo.reverseLoop r.ref i j n) (fun p q => q = p) (fun _ _ => ∃ₛ k, It r f k ∗ It r l k ∗ S) := by
  induction hN : j - i using Nat.strongRecOn generalizing i j n with | _ N ih => ?_
  by_cases h1 : i = j
  · subst h1
    lzero Algo.reverseLoop reverseLoop
    refine Triple.pre ?_ (hk _ _ _ rfl hw)
    exact sep_mono (ent_refl _) (sep_mono (ent_ex_right i (ent_refl _)) (ent_refl _))
  · lsucc Algo.reverseLoop reverseLoop h1
    have h0 : j ≠ 0 := by omega
    simp only [Algo.dec, h0, ↓reduceIte, pure_bind] at hw
    istep
    istep
    by_cases h2 : i = j - 1
    · simp only [h2, ne_eq, not_true_eq_false, ↓reduceIte, decide_false, Bool.false_eq_true] at hw ⊢
      exact (ih _ (by omega) (i := j - 1) (j := j - 1) (n := n + 1) (by omega) (by omega) rfl).use hw (by cancel) hk
    · simp only [h2, ne_eq, not_false_eq_true, ↓reduceIte, decide_true, bind_assoc] at hw ⊢
      istep
      intro c1 hw
      istep
      exact (ih _ (by omega) (i := i + 1) (j := j - 1) (n := n + 1 + 1) (by omega) (by omega) rfl).use hw (by cancel) hk

theorem reverseCopyLoop_ref (hr : r.Ok True Z S) (hr2 : r2.Ok True Z S) (hb : r.kind.bidir) (hij : i ≤ j) (hj : j ≤ r.len) (ha : a + (j - i) ≤ r2.len) :
    RefC (It r f i ∗ It r l j ∗ It r2 d a ∗ S) (reverseCopyLoop f l d n) (Algo.reverseCopyLoop r.ref r2.ref i j a n)
      (fun p q => q = p.1 ∧ p.2 = a + (j - i)) (fun p _ => It r f i ∗ It r l i ∗ It r2 d p.2 ∗ S) := by
  induction hN : j - i generalizing j a n with
  | zero =>
    obtain rfl : i = j := by omega
    lzero Algo.reverseCopyLoop reverseCopyLoop
    refine Triple.pre ?_ (hk _ _ _ (by exact ⟨rfl, by dsimp only; omega⟩) hw)
    cancel
  | succ N ih =>
    have h1 : i ≠ j := by omega
    lsucc Algo.reverseCopyLoop reverseCopyLoop h1
    have h0 : j ≠ 0 := by omega
    simp only [Algo.dec, h0, ↓reduceIte, pure_bind] at hw
    istep
    istep
    intro c1 hw
    istep
    refine (ih (j := j - 1) (a := a + 1) (n := n + 1) (by omega) (by omega) (by omega) (by omega)).use hw (by cancel) fun k' _ c1 hf hw => ?_
    exact hk _ _ _ ⟨hf.1, by omega⟩ hw

theorem uniqueLoop_ref (hr : r.Ok True Z S) {pred : V → V → Bool} (hki : k < i) (hij : i ≤ j) (hj : j ≤ r.len) :
    RefC (It r f k ∗ It r x i ∗ It r l j ∗ S) (uniqueLoop pred f x l n) (Algo.uniqueLoop r.ref pred k i j n)
      (fun p q => q = p.1 ∧ k < p.2 ∧ p.2 ≤ j) (fun p _ => It r f (p.2 - 1) ∗ It r x j ∗ It r l j ∗ S) := by
  induction hN : j - i generalizing i k n with
  | zero =>
    obtain rfl : i = j := by omega
    lzero Algo.uniqueLoop uniqueLoop
    refine Triple.pre ?_ (hk _ _ _ (by exact ⟨rfl, by dsimp only; omega, by dsimp only; omega⟩) hw)
    dsimp only
    rw [show k + 1 - 1 = k by omega]
    cancel
  | succ N ih =>
    have h1 : i ≠ j := by omega
    lsucc Algo.uniqueLoop uniqueLoop h1
    istep
    intro b c1 hw
    cases b
    · simp only [Bool.not_false, ↓reduceIte, bind_assoc] at hw ⊢
      istep
      istep
      intro c1 hw
      istep
      refine (ih (i := i + 1) (k := k + 1) (n := n + 1) (by omega) (by omega) (by omega)).use hw (by cancel) fun k' _ c1 hf hw => ?_
      exact hk _ _ _ ⟨hf.1, by omega, hf.2.2⟩ hw
    · simp only [Bool.not_true, Bool.false_eq_true, ↓reduceIte, bind_assoc] at hw ⊢
      istep
      refine (ih (i := i + 1) (k := k) (n := n) (by omega) (by omega) (by omega)).use hw (by cancel) fun k' _ c1 hf hw => ?_
      exact hk _ _ _ hf hw

theorem uniqueCopyLoop_ref (hr : r.Ok True Z S) (hr2 : r2.Ok True Z S) {pred : V → V → Bool} (hij : i ≤ j) (hj : j ≤ r.len) (ha : a < r2.len) :
    RefC (It r f i ∗ It r l j ∗ It r2 d a ∗ S) (uniqueCopyLoop pred f l d n) (Algo.uniqueCopyLoop r.ref r2.slots pred i j a n)
      (fun p q => q = p.1 ∧ a < p.2 ∧ p.2 ≤ r2.len) (fun p _ => It r f j ∗ It r l j ∗ It r2 d (p.2 - 1) ∗ S) := by
  induction hN : j - i generalizing i a n with
  | zero =>
    obtain rfl : i = j := by omega
    lzero Algo.uniqueCopyLoop uniqueCopyLoop
    refine Triple.pre ?_ (hk _ _ _ (by exact ⟨rfl, by dsimp only; omega, by dsimp only; omega⟩) hw)
    dsimp only
    rw [show a + 1 - 1 = a by omega]
    cancel
  | succ N ih =>
    have h1 : i ≠ j := by omega
    lsucc Algo.uniqueCopyLoop uniqueCopyLoop h1
    rw [show r2.slots a = r2.ref a by simp only [Src.slots, ha, ↓reduceIte]] at hw
    istep
    intro b c1 hw
    cases b
    · simp only [Bool.not_false, ↓reduceIte, bind_assoc] at hw ⊢
      refine room_asg hw (by cancel) fun hlt hw => ?_
      istep
      istep
      intro c1 hw
      istep
      refine (ih (i := i + 1) (a := a + 1) (n := n + 1) (by omega) (by omega) (by omega)).use hw (by cancel) fun k' _ c1 hf hw => ?_
      exact hk _ _ _ ⟨hf.1, by omega, hf.2.2⟩ hw
    · simp only [Bool.not_true, Bool.false_eq_true, ↓reduceIte, bind_assoc] at hw ⊢
      istep
      refine (ih (i := i + 1) (a := a) (n := n) (by omega) (by omega) (by omega)).use hw (by cancel) fun k' _ c1 hf hw => ?_
      exact hk _ _ _ hf hw

theorem rotateLoop1_ref (hr : r.Ok True Z S) (hn1 : r.Real S) (hm : r.kind.type < 7) {nf : Nat} (hik : i < k) (hka : k ≤ a) (haj : a < j) (hj : j ≤ r.len) :
    RefC (It r f i ∗ It r nf k ∗ It r x a ∗ It r l j ∗ S) (rotateLoop1 f nf x l) (Algo.rotateLoop1 r.ref i k a j)
      (fun p _ => i ≤ p.1 ∧ p.1 < p.2 ∧ p.2 ≤ j) (fun p _ => It r f p.1 ∗ It r nf p.2 ∗ It r x j ∗ It r l j ∗ S) := by
  induction hN : j - a generalizing i k a with
  | zero => omega
  | succ N ih =>
    intro β γ K' K c Ψ F Q hw hk
    rw [Algo.rotateLoop1] at hw
    rw [rotateLoop1]
    simp only [bind_assoc] at hw ⊢
    istep
    intro c1 hw
    istep
    istep
    istep
    have key : ∀ (k' : Nat) (c1 : Heap V), i + 1 < k' → k' ≤ a + 1 → Wp ((if a + 1 ≠ j then Algo.rotateLoop1 r.ref (i + 1) k' (a + 1) j else pure (i + 1, k')) >>= K') c1 Ψ →
        Triple True (Ex c1 ∗ It r f (i + 1) ∗ It r nf k' ∗ It r x (a + 1) ∗ It r l j ∗ S ∗ F) (cNe x l >>= fun b => (if b then rotateLoop1 f nf x l else pure ()) >>= K) Q := by
      intro k' c1 hk1 hk2 hw
      istep
      by_cases e : a + 1 = j
      · simp only [e, ne_eq, not_true_eq_false, ↓reduceIte, decide_false, Bool.false_eq_true, pure_bind] at hw ⊢
        refine Triple.pre ?_ (hk _ _ _ (by exact ⟨by dsimp only; omega, by dsimp only; omega, by dsimp only; omega⟩) hw)
        cancel
      · simp only [e, ne_eq, not_false_eq_true, ↓reduceIte, decide_true] at hw ⊢
        refine (ih (i := i + 1) (k := k') (a := a + 1) (by omega) (by omega) (by omega) (by omega)).use hw (by cancel) fun p _ c1 hf hw => ?_
        exact hk _ _ _ ⟨by omega, hf.2⟩ hw
    by_cases e : i + 1 = k
    · simp only [e, decide_true, ↓reduceIte, bind_assoc, pure_bind] at hw ⊢
      istep
      simp only [← e] at hw ⊢
      refine Triple.pre ?_ (key (a + 1) c1 (by omega) (by omega) hw)
      cancel
    · simp only [e, decide_false, ↓reduceIte, bind_assoc, pure_bind, Bool.false_eq_true] at hw ⊢
      refine Triple.pre ?_ (key k c1 (by omega) (by omega) hw)
      cancel

theorem rotateLoop2_ref (hr : r.Ok True Z S) (hn1 : r.Real S) (hm : r.kind.type < 7) {nf : Nat} (hik : i < k) (hka : k ≤ a) (haj : a ≤ j) (hj : j ≤ r.len) :
    RefC (It r f i ∗ It r nf k ∗ It r x a ∗ It r l j ∗ S) (rotateLoop2 f nf x l) (Algo.rotateLoop2 r.ref i k a j)
      (fun _ _ => True) (fun _ _ => ∃ₛ i' k', It r f i' ∗ It r nf k' ∗ It r x j ∗ It r l j ∗ S) := by
  induction hN : j - i generalizing i k a with
  | zero => omega
  | succ N ih =>
    by_cases h1 : a = j
    · subst h1
      lzero Algo.rotateLoop2 rotateLoop2
      refine Triple.pre ?_ (hk _ _ _ trivial hw)
      exact sep_mono (ent_refl _) (sep_mono (ent_ex_right i (ent_ex_right k (ent_refl _))) (ent_refl _))
    · lsucc Algo.rotateLoop2 rotateLoop2 h1
      istep
      intro c1 hw
      istep
      istep
      istep
      have key2 : ∀ (k' a' : Nat) (c1 : Heap V), i + 1 < k' → k' ≤ a' → a' ≤ j → Wp (Algo.rotateLoop2 r.ref (i + 1) k' a' j >>= K') c1 Ψ →
          Triple True (Ex c1 ∗ It r f (i + 1) ∗ It r nf k' ∗ It r x a' ∗ It r l j ∗ S ∗ F) (rotateLoop2 f nf x l >>= K) Q := by
        intro k' a' c1 hk1 hk2 hk3 hw
        exact (ih (i := i + 1) (k := k') (a := a') (by omega) (by omega) (by omega) (by omega)).use hw (by cancel) hk
      have key : ∀ (k' : Nat) (c1 : Heap V), i + 1 < k' → k' ≤ a + 1 → Wp (Algo.rotateLoop2 r.ref (i + 1) k' (if a + 1 = j then k' else a + 1) j >>= K') c1 Ψ →
          Triple True (Ex c1 ∗ It r f (i + 1) ∗ It r nf k' ∗ It r x (a + 1) ∗ It r l j ∗ S ∗ F)
            (cEq x l >>= fun b => (if b = true then (cAssign x nf >>= fun _ => pure ()) else pure ()) >>= fun _ => rotateLoop2 f nf x l >>= K) Q := by
        intro k' c1 hk1 hk2 hw
        istep
        by_cases e : a + 1 = j
        · simp only [e, decide_true, ↓reduceIte, bind_assoc, pure_bind] at hw ⊢
          istep
          refine Triple.pre ?_ (key2 k' k' c1 (by omega) (by omega) (by omega) hw)
          cancel
        · simp only [e, decide_false, ↓reduceIte, bind_assoc, pure_bind, Bool.false_eq_true] at hw ⊢
          refine Triple.pre ?_ (key2 k' (a + 1) c1 (by omega) (by omega) (by omega) hw)
          cancel
      by_cases e : i + 1 = k
      · simp only [e, decide_true, ↓reduceIte, bind_assoc, pure_bind] at hw ⊢
        istep
        simp only [← e] at hw ⊢
        refine Triple.pre ?_ (key (a + 1) c1 (by omega) (by omega) hw)
        cancel
      · simp only [e, decide_false, ↓reduceIte, bind_assoc, pure_bind, Bool.false_eq_true] at hw ⊢
        refine Triple.pre ?_ (key k c1 (by omega) (by omega) hw)
        cancel

/-! ## elements in temporaries -/

/-- assignment from a temporary that only one of the programs has -/
theorem assignT_at {t : Nat} {v : V} {c : Heap V} {Ψ : α → Heap V → Prop} {K' : Unit → M V α} {Q : β → HProp V} (h1 : At P r x i) (hr : r.Ok True Z S) (hw : Wp (wr (r.ref i) v >>= K') c Ψ)
    (hS : P ⊢ₛ S ∗ Ex c ∗ pts (t, 1) (.obj (some v)) ∗ R) (hi : i < r.len) {K : Unit → M V β}
    (hk : ∀ c1, Wp (K' ()) c1 Ψ → Triple True (S ∗ Ex c1 ∗ pts (t, 1) (.obj (some v)) ∗ R) (K ()) Q) : Triple True P (assignV x (t, 1) >>= K) Q := by
  unfold assignV
  simp only [bind_assoc]
  refine type_at h1 ?_
  refine deref_at hr hS hi h1 ?_
  unfold asg
  simp only [bind_assoc]
  refine Triple.pre (P' := pts (t, 1) (.obj (some v)) ∗ S ∗ Ex c ∗ R) (by cancel) ?_
  step
  refine (Vis.wr (r.ref i) v).use hw (F := S ∗ pts (t, 1) (.obj (some v)) ∗ R) (by cancel) fun b c1 hw1 => ?_
  refine Triple.pre ?_ (hk c1 hw1)
  cancel

theorem transformLoop_ref (hr : r.Ok True Z S) (hr2 : r2.Ok True Z S) {op : V → V} {t : Nat} (hij : i ≤ j) (hj : j ≤ r.len) (ha : a + (j - i) ≤ r2.len) {w : V} :
    RefC (It r f i ∗ It r l j ∗ It r2 d a ∗ pts (t, 1) (.obj (some w)) ∗ S) (transformLoop op t f l d n) (Algo.transformLoop r.ref r2.ref op i j a n) (fun p q => q = p)
      (fun _ _ => ∃ₛ w, It r f j ∗ It r l j ∗ It r2 d (a + (j - i)) ∗ pts (t, 1) (.obj (some w)) ∗ S) := by
  induction hN : j - i generalizing i a n w with
  | zero =>
    obtain rfl : i = j := by omega
    lzero Algo.transformLoop transformLoop
    refine Triple.pre ?_ (hk _ _ _ rfl hw)
    refine ent_trans (show _ ⊢ₛ Ex c ∗ (It r f i ∗ It r l i ∗ It r2 d (a + 0) ∗ pts (t, 1) (.obj (some w)) ∗ S) ∗ F by cancel) ?_
    exact sep_mono (ent_refl _) (sep_mono (ent_ex_right w (ent_refl _)) (ent_refl _))
  | succ N ih =>
    have h1 : i ≠ j := by omega
    lsucc Algo.transformLoop transformLoop h1
    istep
    istep
    unfold asg
    simp only [bind_assoc]
    refine (Vis.ldV (r.ref i)).use hw (F := pts (t, 1) (.obj (some w)) ∗ It r f i ∗ It r l j ∗ It r2 d a ∗ S ∗ F) (by cancel) fun v c1 hw => ?_
    unfold wr
    simp only [bind_assoc]
    step
    step
    step
    step
    step
    refine assignT_at (i := a) (v := op v) (by at_it) hr2 (K' := fun _ => Algo.transformLoop r.ref r2.ref op (i + 1) j (a + 1) (n + 1) >>= K') (c := c1) (Ψ := Ψ)
      (R := It r f i ∗ It r l j ∗ It r2 d a ∗ F) ?_ (by cancel) (by omega) fun c1 hw => ?_
    · simpa only [wr, bind_assoc] using hw
    istep
    istep
    refine (ih (i := i + 1) (a := a + 1) (n := n + 1) (w := op v) (by omega) (by omega) (by omega)).use hw (by cancel) fun k' _ c1 hf hw => ?_
    rw [show a + 1 + N = a + (N + 1) by omega]
    exact hk _ _ _ hf hw

/-- what `algo_generate` does to the elements; its temporary is not seen -/
def genLoop (c : Slots) (gen : Nat → V) (first last n : Nat) : M V Nat :=
  if first ≠ last then do
    wr (c first) (gen n)
    genLoop c gen (first + 1) last (n + 1)
  else pure n
partial_fixpoint

/-- what `algo_generate_n` does to the elements; its temporary is not seen -/
def genNLoop (c : Slots) (gen : Nat → V) (first k : Nat) : Nat → M V Nat
  | 0 => pure first
  | n + 1 => do
    wr (c first) (gen k)
    genNLoop c gen (first + 1) (k + 1) n

theorem generateLoop_ref (hr : r.Ok True Z S) {gen : Nat → V} {t : Nat} (hij : i ≤ j) (hj : j ≤ r.len) {w : Option V} :
    RefC (It r f i ∗ It r l j ∗ pts (t, 1) (.obj w) ∗ S) (generateLoop gen t f l n) (genLoop r.ref gen i j n) (fun p q => q = p)
      (fun _ _ => ∃ₛ w', ⌜i < j → w' ≠ none⌝ ∗ ⌜i = j → w' = w⌝ ∗ It r f j ∗ It r l j ∗ pts (t, 1) (.obj w') ∗ S) := by
  induction hN : j - i generalizing i n w with
  | zero =>
    obtain rfl : i = j := by omega
    lzero genLoop generateLoop
    refine Triple.pre ?_ (hk _ _ _ rfl hw)
    refine sep_mono (ent_refl _) (sep_mono (ent_ex_right w (ent_pure_right (fun h => absurd h (by omega)) (ent_pure_right (fun _ => rfl) (ent_refl _)))) (ent_refl _))
  | succ N ih =>
    have h1 : i ≠ j := by omega
    lsucc genLoop generateLoop h1
    refine Triple.pre (P' := pts (t, 1) (.obj w) ∗ Ex c ∗ It r f i ∗ It r l j ∗ S ∗ F) (by cancel) ?_
    step
    step
    refine assignT_at (i := i) (v := gen n) (by at_it) hr hw (R := It r f i ∗ It r l j ∗ F) (by cancel) (by omega) fun c1 hw => ?_
    istep
    refine (ih (i := i + 1) (n := n + 1) (w := some (gen n)) (by omega) (by omega)).use hw (by cancel) fun k' _ c1 hf hw => ?_
    refine Triple.pre ?_ (hk _ _ _ hf hw)
    refine sep_mono (ent_refl _) (sep_mono (ent_ex_left fun w' => ent_pure_left fun h1 => ent_pure_left fun h2 => ent_ex_right w' (ent_pure_right ?_ (ent_pure_right ?_ (ent_refl _)))) (ent_refl _))
    · intro _
      by_cases e : i + 1 = j
      · rw [h2 e]; simp
      · exact h1 (by omega)
    · intro h; omega

theorem generateNLoop_ref (hr : r.Ok True Z S) {gen : Nat → V} {t : Nat} (hj : i + n ≤ r.len) {w : Option V} :
    RefC (It r f i ∗ pts (t, 1) (.obj w) ∗ S) (generateNLoop gen t f k n) (genNLoop r.ref gen i k n) (fun p _ => p = i + n)
      (fun _ _ => ∃ₛ w', ⌜0 < n → w' ≠ none⌝ ∗ ⌜n = 0 → w' = w⌝ ∗ It r f (i + n) ∗ pts (t, 1) (.obj w') ∗ S) := by
  induction n generalizing i k w with
  | zero =>
    intro β γ K' K c Ψ F Q hw hk
    rw [genNLoop] at hw
    rw [generateNLoop]
    simp only [pure_bind] at hw ⊢
    refine Triple.pre ?_ (hk _ _ _ rfl hw)
    refine sep_mono (ent_refl _) (sep_mono (ent_ex_right w (ent_pure_right (fun h => absurd h (by omega)) (ent_pure_right (fun _ => rfl) (ent_refl _)))) (ent_refl _))
  | succ N ih =>
    intro β γ K' K c Ψ F Q hw hk
    rw [genNLoop] at hw
    rw [generateNLoop]
    simp only [bind_assoc] at hw ⊢
    refine Triple.pre (P' := pts (t, 1) (.obj w) ∗ Ex c ∗ It r f i ∗ S ∗ F) (by cancel) ?_
    step
    step
    refine assignT_at (i := i) (v := gen k) (by at_it) hr hw (R := It r f i ∗ F) (by cancel) (by omega) fun c1 hw => ?_
    istep
    refine (ih (i := i + 1) (k := k + 1) (w := some (gen k)) (by omega)).use hw (by cancel) fun k' _ c1 hf hw => ?_
    rw [show i + 1 + N = i + (N + 1) by omega]
    refine Triple.pre ?_ (hk _ _ _ (by omega) hw)
    refine sep_mono (ent_refl _) (sep_mono (ent_ex_left fun w' => ent_pure_left fun h1 => ent_pure_left fun h2 => ent_ex_right w' (ent_pure_right ?_ (ent_pure_right ?_ (ent_refl _)))) (ent_refl _))
    · intro _
      by_cases e : N = 0
      · rw [h2 e]; simp
      · exact h1 (by omega)
    · intro h; omega

/-! ## shuffling -/

theorem copyMove_old {q k' : Nat} {n : Int} {Q : β → HProp V} (he : P ⊢ₛ It r q k ∗ R) (h1 : At R r x i) (hr : r.Ok True Z S) (hS : R ⊢ₛ S ∗ F) (hkn : (k' : Int) = i + n) (hk' : k' ≤ r.len) (hi : i ≤ r.len)
    (h2 : 0 ≤ n ∨ r.kind.bidir) {K : Nat → M V β} (hk : Triple True (It r q k' ∗ S ∗ F) (K q) Q) : Triple True P (copyMove q x n >>= K) Q := by
  unfold copyMove
  simp only [bind_assoc, pure_bind]
  refine Triple.pre he ?_
  refine set_loc (i := i) (h1.mono (R := It r q k) (by cancel)) ?_
  exact adv_at (ent_refl _) hr hS hkn hk' hi h2 hk

theorem shuffleLoop_ref (hr : r.Ok True Z S) (hn1 : r.Real S) (hm : r.kind.type < 7) {rr : Nat → Nat} (hrr : ∀ k, k ≤ n → rr k ≤ k) (hn : n = 0 ∨ i + n < r.len) (hi : i ≤ r.len) :
    RefC (It r f i ∗ It r x a ∗ It r y b ∗ S) (shuffleLoop rr f n x y) (Algo.shuffleLoop r.ref i rr n) (fun _ q => q = (x, y))
      (fun _ _ => ∃ₛ a b, It r f i ∗ It r x a ∗ It r y b ∗ S) := by
  induction n generalizing a b with
  | zero =>
    intro β γ K' K c Ψ F Q hw hk
    rw [Algo.shuffleLoop] at hw
    rw [shuffleLoop]
    simp only [pure_bind] at hw ⊢
    refine Triple.pre ?_ (hk _ _ _ rfl hw)
    exact sep_mono (ent_refl _) (sep_mono (ent_ex_right a (ent_ex_right b (ent_refl _))) (ent_refl _))
  | succ N ih =>
    intro β γ K' K c Ψ F Q hw hk
    rw [Algo.shuffleLoop] at hw
    rw [shuffleLoop]
    simp only [bind_assoc] at hw ⊢
    have h1 := hrr (N + 1) (by omega)
    refine copyMove_old (k' := i + (N + 1)) (k := a) (R := Ex c ∗ It r f i ∗ It r y b ∗ S ∗ F) (i := i) (by cancel) (by at_it) hr (by cancel) (by omega) (by omega) hi (.inl (by omega)) ?_
    refine copyMove_old (k' := i + rr (N + 1)) (k := b) (R := Ex c ∗ It r f i ∗ It r x (i + (N + 1)) ∗ S ∗ F) (i := i) (by cancel) (by at_it) hr (by cancel) (by omega) (by omega) hi (.inl (by omega)) ?_
    istep
    intro c1 hw
    exact (ih (a := i + (N + 1)) (b := i + rr (N + 1)) (fun k hk => hrr k (by omega)) (by omega)).use hw (by cancel) hk

section
variable (hr : r.Ok True Z S) (hij : i ≤ j) (hj : j ≤ r.len) (h1 : At A r first i) (h2 : At A r last j)
include hr hij hj h1 h2

theorem copy_ref (hr2 : r2.Ok True Z S) (hm : r2.kind.type < 7) (h3 : At A r2 dFirst a) (ha : a + (j - i) ≤ r2.len) {low : Nat → Nat} (hlow : ∀ q, q ≠ 0 → 2 ≤ low q) (hO : OutOk r2 o A B) :
    RefC (A ∗ S) (IAlgo.copy low first last dFirst o) (Algo.copy r.ref i j r2.ref a) (fun p q => q.1 = p.1 ∧ p.2 = a + (j - i)) (fun p q => B p.2 q.2 ∗ S) := by
  intro β γ K' K c Ψ F Q hw hk
  have hc := cate_ge r.kind
  have hc2 := cate_ge r2.kind
  inz first hf0
  inz last hl0
  inz dFirst hd0
  unfold Algo.copy at hw
  unfold IAlgo.copy
  simp only [hf0, hl0, hd0, or_self, ↓reduceIte, bind_assoc] at hw ⊢
  isteps
  refine hO.low hlow (by cancel) ?_
  isteps
  refine (copyLoop_ref hr hr2 hij hj ha).use hw (by cancel) fun p q c1 hf hw => ?_
  refine hO.set (by cancel) (i := p.2) (by at_it) fun o => ?_
  isteps
  simp only [pure_bind]
  refine Triple.pre ?_ (hk _ _ _ hf hw)
  cancel

theorem copyIf_ref (hr2 : r2.Ok True Z S) (hm : r2.kind.type < 7) (h3 : At A r2 dFirst a) (ha : a ≤ r2.len) {pred : V → Bool} {low : Nat → Nat} (hlow : ∀ q, q ≠ 0 → 2 ≤ low q) (hO : OutOk r2 o A B) :
    RefC (A ∗ S) (IAlgo.copyIf low first last dFirst o pred) (Algo.copyIf r.ref i j r2.slots a pred) (fun p q => q.1 = p.1 ∧ a ≤ p.2 ∧ p.2 ≤ r2.len) (fun p q => B p.2 q.2 ∗ S) := by
  intro β γ K' K c Ψ F Q hw hk
  have hc := cate_ge r.kind
  have hc2 := cate_ge r2.kind
  inz first hf0
  inz last hl0
  inz dFirst hd0
  unfold Algo.copyIf at hw
  unfold IAlgo.copyIf
  simp only [hf0, hl0, hd0, or_self, ↓reduceIte, bind_assoc] at hw ⊢
  isteps
  refine hO.low hlow (by cancel) ?_
  isteps
  refine (copyIfLoop_ref hr hr2 (CondOk.test hr) hij hj ha).use hw (by cancel) fun p q c1 hf hw => ?_
  refine hO.set (by cancel) (i := p.2) (by at_it) fun o => ?_
  isteps
  simp only [pure_bind]
  refine Triple.pre ?_ (hk _ _ _ hf hw)
  cancel

theorem removeCopyIf_ref (hr2 : r2.Ok True Z S) (h3 : At A r2 dFirst a) (ha : a ≤ r2.len) {pred : V → Bool} {low : Nat → Nat} (hlow : ∀ q, q ≠ 0 → 2 ≤ low q) (hO : OutOk r2 o A B) :
    RefC (A ∗ S) (IAlgo.removeCopyIf low first last dFirst o pred) (Algo.removeCopyIf r.ref i j r2.slots a pred) (fun p q => q.1 = p.1 ∧ a ≤ p.2 ∧ p.2 ≤ r2.len) (fun p q => B p.2 q.2 ∗ S) := by
  intro β γ K' K c Ψ F Q hw hk
  have hc := cate_ge r.kind
  have hc2 := cate_ge r2.kind
  inz first hf0
  inz last hl0
  inz dFirst hd0
  unfold Algo.removeCopyIf at hw
  unfold IAlgo.removeCopyIf
  simp only [hf0, hl0, hd0, or_self, ↓reduceIte, bind_assoc] at hw ⊢
  isteps
  refine hO.low hlow (by cancel) ?_
  isteps
  refine (copyIfLoop_ref hr hr2 (CondOk.not (CondOk.test hr)) hij hj ha).use hw (by cancel) fun p q c1 hf hw => ?_
  refine hO.set (by cancel) (i := p.2) (by at_it) fun o => ?_
  isteps
  simp only [pure_bind]
  refine Triple.pre ?_ (hk _ _ _ hf hw)
  cancel

theorem removeCopy_ref (hr2 : r2.Ok True Z S) (hm : r2.kind.type < 7) (h3 : At A r2 dFirst a) (ha : a ≤ r2.len) {E : Nat → V → V → Bool} {value : Loc} (hv : value.1 ≠ 0) {low : Nat → Nat} (hlow : ∀ q, q ≠ 0 → 2 ≤ low q) (hO : OutOk r2 o A B) :
    RefC (A ∗ S) (IAlgo.removeCopy low E first last dFirst value o) (Algo.removeCopy r.ref i j r2.slots a value (E r.ty)) (fun p q => q.1 = p.1 ∧ a ≤ p.2 ∧ p.2 ≤ r2.len) (fun p q => B p.2 q.2 ∗ S) := by
  intro β γ K' K c Ψ F Q hw hk
  have hc := cate_ge r.kind
  have hc2 := cate_ge r2.kind
  inz first hf0
  inz last hl0
  inz dFirst hd0
  unfold Algo.removeCopy at hw
  unfold IAlgo.removeCopy
  simp only [hf0, hl0, hd0, hv, or_self, ↓reduceIte, bind_assoc] at hw ⊢
  isteps
  refine hO.low hlow (by cancel) ?_
  isteps
  refine (copyIfLoop_ref hr hr2 (CondOk.not (CondOk.equalV hr)) hij hj ha).use hw (by cancel) fun p q c1 hf hw => ?_
  refine hO.set (by cancel) (i := p.2) (by at_it) fun o => ?_
  isteps
  simp only [pure_bind]
  refine Triple.pre ?_ (hk _ _ _ hf hw)
  cancel

theorem replaceCopy_ref (hr2 : r2.Ok True Z S) (hm : r2.kind.type < 7) (h3 : At A r2 dFirst a) (ha : a + (j - i) ≤ r2.len) {E : Nat → V → V → Bool} {old new : Loc} (hv : old.1 ≠ 0) (hv2 : new.1 ≠ 0) {low : Nat → Nat} (hlow : ∀ q, q ≠ 0 → 2 ≤ low q) (hO : OutOk r2 o A B) :
    RefC (A ∗ S) (IAlgo.replaceCopy low E first last dFirst old new o) (Algo.replaceCopy r.ref i j r2.ref a old new (E r.ty)) (fun p q => q.1 = p.1 ∧ p.2 = a + (j - i)) (fun p q => B p.2 q.2 ∗ S) := by
  intro β γ K' K c Ψ F Q hw hk
  have hc := cate_ge r.kind
  have hc2 := cate_ge r2.kind
  inz first hf0
  inz last hl0
  inz dFirst hd0
  unfold Algo.replaceCopy at hw
  unfold IAlgo.replaceCopy
  simp only [hf0, hl0, hd0, hv, hv2, or_self, ↓reduceIte, bind_assoc] at hw ⊢
  isteps
  refine hO.low hlow (by cancel) ?_
  isteps
  refine (replaceCopyLoop_ref hr hr2 (CondOk.equalV hr) hij hj ha).use hw (by cancel) fun p q c1 hf hw => ?_
  refine hO.set (by cancel) (i := p.2) (by at_it) fun o => ?_
  isteps
  simp only [pure_bind]
  refine Triple.pre ?_ (hk _ _ _ hf hw)
  cancel

theorem replaceCopyIf_ref (hr2 : r2.Ok True Z S) (hm : r2.kind.type < 7) (h3 : At A r2 dFirst a) (ha : a + (j - i) ≤ r2.len) {pred : V → Bool} {new : Loc} (hv2 : new.1 ≠ 0) {low : Nat → Nat} (hlow : ∀ q, q ≠ 0 → 2 ≤ low q) (hO : OutOk r2 o A B) :
    RefC (A ∗ S) (IAlgo.replaceCopyIf low first last dFirst pred new o) (Algo.replaceCopyIf r.ref i j r2.ref a pred new) (fun p q => q.1 = p.1 ∧ p.2 = a + (j - i)) (fun p q => B p.2 q.2 ∗ S) := by
  intro β γ K' K c Ψ F Q hw hk
  have hc := cate_ge r.kind
  have hc2 := cate_ge r2.kind
  inz first hf0
  inz last hl0
  inz dFirst hd0
  unfold Algo.replaceCopyIf at hw
  unfold IAlgo.replaceCopyIf
  simp only [hf0, hl0, hd0, hv2, or_self, ↓reduceIte, bind_assoc] at hw ⊢
  isteps
  refine hO.low hlow (by cancel) ?_
  isteps
  refine (replaceCopyLoop_ref hr hr2 (CondOk.test hr) hij hj ha).use hw (by cancel) fun p q c1 hf hw => ?_
  refine hO.set (by cancel) (i := p.2) (by at_it) fun o => ?_
  isteps
  simp only [pure_bind]
  refine Triple.pre ?_ (hk _ _ _ hf hw)
  cancel

theorem copyBackward_ref (hr2 : r2.Ok True Z S) (hm : r2.kind.type < 7) (h3 : At A r2 dFirst a) (hb : r.kind.bidir) (hb2 : r2.kind.bidir) (ha : j - i ≤ a) (ha2 : a ≤ r2.len) {low : Nat → Nat} (hlow : ∀ q, q ≠ 0 → 3 ≤ low q) (hO : OutOk r2 o A B) :
    RefC (A ∗ S) (IAlgo.copyBackward low first last dFirst o) (Algo.copyBackward r.ref i j r2.ref a) (fun p q => q.1 = p.1 ∧ p.2 = a - (j - i)) (fun p q => B p.2 q.2 ∗ S) := by
  intro β γ K' K c Ψ F Q hw hk
  have hc := cate_ge r.kind
  have hc2 := cate_ge r2.kind
  inz first hf0
  inz last hl0
  inz dFirst hd0
  unfold Algo.copyBackward at hw
  unfold IAlgo.copyBackward
  simp only [hf0, hl0, hd0, or_self, ↓reduceIte, bind_assoc] at hw ⊢
  have hc3 := bidir_ge hb
  have hc4 := bidir_ge hb2
  isteps
  refine hO.low hlow (by cancel) ?_
  isteps
  refine (copyBackwardLoop_ref hr hr2 hb hb2 hij hj ha ha2).use hw (by cancel) fun p q c1 hf hw => ?_
  refine hO.set (by cancel) (i := p.2) (by at_it) fun o => ?_
  isteps
  simp only [pure_bind]
  refine Triple.pre ?_ (hk _ _ _ hf hw)
  cancel

theorem reverseCopy_ref (hr2 : r2.Ok True Z S) (hm : r2.kind.type < 7) (h3 : At A r2 dFirst a) (hb : r.kind.bidir) (ha : a + (j - i) ≤ r2.len) {low : Nat → Nat} (hlow : ∀ q, q ≠ 0 → 2 ≤ low q) (hO : OutOk r2 o A B) :
    RefC (A ∗ S) (IAlgo.reverseCopy low first last dFirst o) (Algo.reverseCopy r.ref i j r2.ref a) (fun p q => q.1 = p.1 ∧ p.2 = a + (j - i)) (fun p q => B p.2 q.2 ∗ S) := by
  intro β γ K' K c Ψ F Q hw hk
  have hc := cate_ge r.kind
  have hc2 := cate_ge r2.kind
  inz first hf0
  inz last hl0
  inz dFirst hd0
  unfold Algo.reverseCopy at hw
  unfold IAlgo.reverseCopy
  simp only [hf0, hl0, hd0, or_self, ↓reduceIte, bind_assoc] at hw ⊢
  have hc3 := bidir_ge hb
  isteps
  refine hO.low hlow (by cancel) ?_
  isteps
  refine (reverseCopyLoop_ref hr hr2 hb hij hj ha).use hw (by cancel) fun p q c1 hf hw => ?_
  refine hO.set (by cancel) (i := p.2) (by at_it) fun o => ?_
  isteps
  simp only [pure_bind]
  refine Triple.pre ?_ (hk _ _ _ hf hw)
  cancel

theorem fill_ref (hm : r.kind.type < 7) {value : Loc} (hv : value.1 ≠ 0) :
    RefC (A ∗ S) (IAlgo.fill first last value) (Algo.fill r.ref i j value) (fun p q => q = p) (fun _ _ => A ∗ S) := by
  intro β γ K' K c Ψ F Q hw hk
  have hc := cate_ge r.kind
  inz first hf0
  inz last hl0
  unfold Algo.fill at hw
  unfold IAlgo.fill
  simp only [hf0, hl0, hv, or_self, ↓reduceIte, bind_assoc] at hw ⊢
  isteps
  refine (fillLoop_ref hr hij hj).use hw (by cancel) fun p q c1 hf hw => ?_
  isteps
  refine Triple.pre ?_ (hk _ _ _ hf hw)
  cancel

theorem swapRange_ref (hr2 : r2.Ok True Z S) (hm : r2.kind.type < 7) (h3 : At A r2 dFirst a) (hm1 : r.kind.type < 7) (hn1 : r.Real S) (hn2 : r2.Real S) (ha : a + (j - i) ≤ r2.len) :
    RefC (A ∗ S) (IAlgo.swapRange first last dFirst) (Algo.swapRange r.ref i j r2.ref a) (fun p q => q = p) (fun _ _ => A ∗ S) := by
  intro β γ K' K c Ψ F Q hw hk
  have hc := cate_ge r.kind
  have hc2 := cate_ge r2.kind
  inz first hf0
  inz last hl0
  inz dFirst hd0
  unfold Algo.swapRange at hw
  unfold IAlgo.swapRange
  simp only [hf0, hl0, hd0, or_self, ↓reduceIte, bind_assoc] at hw ⊢
  isteps
  refine (swapRangeLoop_ref hr hr2 hn1 hn2 hij hj ha).use hw (by cancel) fun p q c1 hf hw => ?_
  isteps
  refine Triple.pre ?_ (hk _ _ _ hf hw)
  cancel

theorem reverse_ref (hm : r.kind.type < 7) (hb : r.kind.bidir) (hn1 : r.Real S) :
    RefC (A ∗ S) (IAlgo.reverse first last) (Algo.reverse r.ref i j) (fun p q => q = p) (fun _ _ => A ∗ S) := by
  intro β γ K' K c Ψ F Q hw hk
  have hc := cate_ge r.kind
  inz first hf0
  inz last hl0
  unfold Algo.reverse at hw
  unfold IAlgo.reverse
  simp only [hf0, hl0, or_self, ↓reduceIte, bind_assoc] at hw ⊢
  have hc3 := bidir_ge hb
  isteps
  refine (reverseLoop_ref hr hn1 hb hij hj).use hw (by cancel) fun p q c1 hf hw => ?_
  rw [← sep_assoc, sep_comm (Ex c1), sep_assoc]
  refine Triple.ex_left' fun k => ?_
  isteps
  refine Triple.pre ?_ (hk _ _ _ hf hw)
  cancel

theorem transform_ref (hr2 : r2.Ok True Z S) (hm : r2.kind.type < 7) (h3 : At A r2 dFirst a) (ha : a + (j - i) ≤ r2.len) {D : Nat → V} {op : V → V} :
    RefC (A ∗ S) (IAlgo.transform D first last dFirst op) (Algo.transform r.ref i j r2.ref a op) (fun p q => q = p) (fun _ _ => A ∗ S) := by
  intro β γ K' K c Ψ F Q hw hk
  have hc := cate_ge r.kind
  have hc2 := cate_ge r2.kind
  inz first hf0
  inz last hl0
  inz dFirst hd0
  unfold Algo.transform at hw
  unfold IAlgo.transform
  simp only [hf0, hl0, hd0, or_self, ↓reduceIte, bind_assoc] at hw ⊢
  isteps
  apply mallocO1
  · exact fun h => absurd trivial h
  intro t ht
  simp only [ht, ↓reduceIte, bind_assoc]
  step
  refine (transformLoop_ref hr hr2 hij hj ha).use hw (by cancel) fun p q c1 hf hw => ?_
  rw [← sep_assoc, sep_comm (Ex c1), sep_assoc]
  refine Triple.ex_left' fun w => ?_
  refine Triple.pre (P' := pts (t, 1) (.obj (some w)) ∗ blk t 1 ∗ _) (by cancel) ?_
  step
  call freeV1
  intro _
  rw [emp_sep]
  isteps
  refine Triple.pre ?_ (hk _ _ _ hf hw)
  cancel

theorem remove_ref (hm : r.kind.type < 7) {E : Nat → V → V → Bool} {value : Loc} (hv : value.1 ≠ 0) {low : Nat → Nat} (hlow : ∀ q, q ≠ 0 → 2 ≤ low q) (hO : OutOk r o A B) :
    RefC (A ∗ S) (IAlgo.remove low E first last value o) (Algo.remove r.ref i j value (E r.ty)) (fun p q => q.1 = p.1 ∧ i ≤ p.2 ∧ p.2 ≤ j) (fun p q => B p.2 q.2 ∗ S) := by
  intro β γ K' K c Ψ F Q hw hk
  have hc := cate_ge r.kind
  inz first hf0
  inz last hl0
  unfold Algo.remove at hw
  unfold IAlgo.remove
  simp only [hf0, hl0, hv, or_self, ↓reduceIte, bind_assoc] at hw ⊢
  istep
  istep
  refine hO.low hlow (by cancel) ?_
  istep
  istep
  intro f _
  istep
  intro l _
  istep
  refine (findBy_ref (A := It r f i ∗ It r l j) (B := fun i a => ⌜a = f⌝ ∗ It r f i ∗ It r l j) hr hij hj (by at_it) (by at_it) hv OutOk.loc).use hw (by cancel) fun p q c1 hf hw => ?_
  obtain ⟨_, h4, h5, _⟩ := hf
  rw [← sep_assoc, sep_comm (Ex c1), sep_assoc, sep_assoc, sep_assoc]
  refine Triple.pure_left fun hq => ?_
  simp only [hq]
  istep
  by_cases e : p.2 = j
  · simp only [e, ne_eq, not_true_eq_false, decide_false, Bool.false_eq_true, ↓reduceIte, pure_bind] at hw ⊢
    refine hO.set (by cancel) (i := j) (by at_it) fun o => ?_
    isteps
    refine Triple.pre ?_ (hk _ _ _ (by exact ⟨rfl, by dsimp only; omega, by dsimp only; omega⟩) hw)
    cancel
  · simp only [e, ne_eq, not_false_eq_true, decide_true, ↓reduceIte, bind_assoc] at hw ⊢
    refine copyMove_at (i := p.2) (k := p.2 + 1) (by at_it) hr (by cancel) (by omega) (by omega) (by omega) (.inl (by omega)) fun nx _ => ?_
    refine (removeLoop_ref hr (CondOk.equalV hr) (by omega) (by omega) hj).use hw (by cancel) fun p q c1 hf hw => ?_
    istep
    simp only [pure_bind]
    refine hO.set (by cancel) (i := p.2) (by at_it) fun o => ?_
    isteps
    refine Triple.pre ?_ (hk _ _ _ (by exact ⟨hf.1, by omega, by omega⟩) hw)
    cancel

theorem removeIf_ref (hm : r.kind.type < 7) {pred : V → Bool} {low : Nat → Nat} (hlow : ∀ q, q ≠ 0 → 2 ≤ low q) (hO : OutOk r o A B) :
    RefC (A ∗ S) (IAlgo.removeIf low first last o pred) (Algo.removeIf r.ref i j pred) (fun p q => q.1 = p.1 ∧ i ≤ p.2 ∧ p.2 ≤ j) (fun p q => B p.2 q.2 ∗ S) := by
  intro β γ K' K c Ψ F Q hw hk
  have hc := cate_ge r.kind
  inz first hf0
  inz last hl0
  unfold Algo.removeIf at hw
  unfold IAlgo.removeIf
  simp only [hf0, hl0, or_self, ↓reduceIte, bind_assoc] at hw ⊢
  istep
  istep
  refine hO.low hlow (by cancel) ?_
  istep
  istep
  intro f _
  istep
  intro l _
  refine (findIf_ref (A := It r f i ∗ It r l j) (B := fun i a => ⌜a = f⌝ ∗ It r f i ∗ It r l j) hr hij hj (by at_it) (by at_it) OutOk.loc).use hw (by cancel) fun p q c1 hf hw => ?_
  obtain ⟨_, h4, h5, _⟩ := hf
  rw [← sep_assoc, sep_comm (Ex c1), sep_assoc, sep_assoc, sep_assoc]
  refine Triple.pure_left fun hq => ?_
  simp only [hq]
  istep
  by_cases e : p.2 = j
  · simp only [e, ne_eq, not_true_eq_false, decide_false, Bool.false_eq_true, ↓reduceIte, pure_bind] at hw ⊢
    refine hO.set (by cancel) (i := j) (by at_it) fun o => ?_
    isteps
    refine Triple.pre ?_ (hk _ _ _ (by exact ⟨rfl, by dsimp only; omega, by dsimp only; omega⟩) hw)
    cancel
  · simp only [e, ne_eq, not_false_eq_true, decide_true, ↓reduceIte, bind_assoc] at hw ⊢
    refine copyMove_at (i := p.2) (k := p.2 + 1) (by at_it) hr (by cancel) (by omega) (by omega) (by omega) (.inl (by omega)) fun nx _ => ?_
    refine (removeLoop_ref hr (CondOk.test hr) (by omega) (by omega) hj).use hw (by cancel) fun p q c1 hf hw => ?_
    istep
    simp only [pure_bind]
    refine hO.set (by cancel) (i := p.2) (by at_it) fun o => ?_
    isteps
    refine Triple.pre ?_ (hk _ _ _ (by exact ⟨hf.1, by omega, by omega⟩) hw)
    cancel

theorem replace_ref (hm : r.kind.type < 7) {E : Nat → V → V → Bool} {old new : Loc} (hv : old.1 ≠ 0) (hv2 : new.1 ≠ 0) :
    RefC (A ∗ S) (IAlgo.replace E first last old new) (Algo.replace r.ref i j old new (E r.ty)) (fun p q => q = p) (fun _ _ => A ∗ S) := by
  intro β γ K' K c Ψ F Q hw hk
  have hc := cate_ge r.kind
  inz first hf0
  inz last hl0
  unfold Algo.replace at hw
  unfold IAlgo.replace
  simp only [hf0, hl0, hv, hv2, or_self, ↓reduceIte, bind_assoc] at hw ⊢
  istep
  istep
  istep
  istep
  intro f _
  istep
  intro l _
  istep
  refine (findBy_ref (A := It r f i ∗ It r l j) (B := fun i a => ⌜a = f⌝ ∗ It r f i ∗ It r l j) hr hij hj (by at_it) (by at_it) hv OutOk.loc).use hw (by cancel) fun p q c1 hf hw => ?_
  obtain ⟨_, h4, h5, _⟩ := hf
  rw [← sep_assoc, sep_comm (Ex c1), sep_assoc, sep_assoc, sep_assoc]
  refine Triple.pure_left fun hq => ?_
  simp only [hq]
  refine (replaceLoop_ref hr (CondOk.equalV hr) (by omega) hj).use hw (by cancel) fun p q c1 hf hw => ?_
  isteps
  refine Triple.pre ?_ (hk _ _ _ hf hw)
  cancel

theorem replaceIf_ref (hm : r.kind.type < 7) {pred : V → Bool} {new : Loc} (hv2 : new.1 ≠ 0) :
    RefC (A ∗ S) (IAlgo.replaceIf first last pred new) (Algo.replaceIf r.ref i j pred new) (fun p q => q = p) (fun _ _ => A ∗ S) := by
  intro β γ K' K c Ψ F Q hw hk
  have hc := cate_ge r.kind
  inz first hf0
  inz last hl0
  unfold Algo.replaceIf at hw
  unfold IAlgo.replaceIf
  simp only [hf0, hl0, hv2, or_self, ↓reduceIte, bind_assoc] at hw ⊢
  istep
  istep
  istep
  istep
  intro f _
  istep
  intro l _
  refine (findIf_ref (A := It r f i ∗ It r l j) (B := fun i a => ⌜a = f⌝ ∗ It r f i ∗ It r l j) hr hij hj (by at_it) (by at_it) OutOk.loc).use hw (by cancel) fun p q c1 hf hw => ?_
  obtain ⟨_, h4, h5, _⟩ := hf
  rw [← sep_assoc, sep_comm (Ex c1), sep_assoc, sep_assoc, sep_assoc]
  refine Triple.pure_left fun hq => ?_
  simp only [hq]
  refine (replaceLoop_ref hr (CondOk.test hr) (by omega) hj).use hw (by cancel) fun p q c1 hf hw => ?_
  isteps
  refine Triple.pre ?_ (hk _ _ _ hf hw)
  cancel

theorem generate_ref (hm : r.kind.type < 7) {gen : Nat → V} (hne : i < j) :
    RefC (A ∗ S) (IAlgo.generate first last gen) (genLoop r.ref gen i j 0) (fun p q => q = p) (fun _ _ => A ∗ S) := by
  intro β γ K' K c Ψ F Q hw hk
  have hc := cate_ge r.kind
  inz first hf0
  inz last hl0
  unfold IAlgo.generate
  simp only [hf0, hl0, or_self, ↓reduceIte, bind_assoc] at hw ⊢
  isteps
  apply mallocO1
  · exact fun h => absurd trivial h
  intro t ht
  simp only [ht, ↓reduceIte, bind_assoc]
  refine (generateLoop_ref hr hij hj).use hw (by cancel) fun p q c1 hf hw => ?_
  rw [← sep_assoc, sep_comm (Ex c1), sep_assoc]
  refine Triple.ex_left' fun w => ?_
  rw [sep_assoc]
  refine Triple.pure_left fun h3 => ?_
  obtain ⟨w, rfl⟩ := Option.ne_none_iff_exists'.1 (h3 hne)
  rw [sep_assoc]
  refine Triple.pure_left fun _ => ?_
  refine Triple.pre (P' := pts (t, 1) (.obj (some w)) ∗ blk t 1 ∗ _) (by cancel) ?_
  step
  call freeV1
  intro _
  rw [emp_sep]
  isteps
  refine Triple.pre ?_ (hk _ _ _ hf hw)
  cancel

theorem unique_ref (hm : r.kind.type < 7) {pred : V → V → Bool} {low : Nat → Nat} (hlow : ∀ q, q ≠ 0 → 2 ≤ low q) (hO : OutOk r o A B) (hI : OutIn r o A B last j) :
    RefC (A ∗ S) (IAlgo.unique low first last o pred) (Algo.unique r.ref i j pred) (fun p q => q.1 = p.1 ∧ i ≤ p.2 ∧ p.2 ≤ j) (fun p q => B p.2 q.2 ∗ S) := by
  intro β γ K' K c Ψ F Q hw hk
  have hc := cate_ge r.kind
  inz first hf0
  inz last hl0
  unfold Algo.unique at hw
  unfold IAlgo.unique
  simp only [hf0, hl0, or_self, ↓reduceIte, bind_assoc] at hw ⊢
  istep
  istep
  refine hO.low hlow (by cancel) ?_
  istep
  istep
  by_cases e : i = j
  · subst e
    simp only [decide_true, ↓reduceIte, bind_assoc, pure_bind] at hw ⊢
    refine hI (by cancel) fun o => ?_
    refine Triple.pre ?_ (hk _ _ _ (by exact ⟨rfl, by dsimp only; omega, by dsimp only; omega⟩) hw)
    cancel
  · simp only [e, decide_false, Bool.false_eq_true, ↓reduceIte, bind_assoc, pure_bind] at hw ⊢
    istep
    intro f _
    istep
    intro l _
    refine copyMove_at (i := i) (k := i + 1) (x := f) (by at_it) hr (by cancel) (by omega) (by omega) (by omega) (.inl (by omega)) fun nx _ => ?_
    refine (uniqueLoop_ref hr (by omega) (by omega) hj).use hw (by cancel) fun p q c1 hf hw => ?_
    istep
    rw [show p.2 - 1 + 1 = p.2 by omega]
    refine hO.set (by cancel) (i := p.2) (by at_it) fun o => ?_
    isteps
    refine Triple.pre ?_ (hk _ _ _ (by exact ⟨hf.1, by omega, by omega⟩) hw)
    cancel

theorem uniqueCopy_ref (hr2 : r2.Ok True Z S) (hm : r2.kind.type < 7) (h3 : At A r2 dFirst a) (ha : a ≤ r2.len) {pred : V → V → Bool} {low : Nat → Nat} (hlow : ∀ q, q ≠ 0 → 2 ≤ low q)
    (hO : OutOk r2 o A B) (hI : OutIn r2 o A B dFirst a) (ho : o.isNull = false) :
    RefC (A ∗ S) (IAlgo.uniqueCopy low first last dFirst o pred) (Algo.uniqueCopy r.ref i j r2.slots a pred) (fun p q => q.1 = p.1 ∧ a ≤ p.2 ∧ p.2 ≤ r2.len) (fun p q => B p.2 q.2 ∗ S) := by
  intro β γ K' K c Ψ F Q hw hk
  have hc := cate_ge r.kind
  have hc2 := cate_ge r2.kind
  inz first hf0
  inz last hl0
  inz dFirst hd0
  unfold Algo.uniqueCopy at hw
  unfold IAlgo.uniqueCopy
  simp only [hf0, hl0, hd0, ho, Bool.false_eq_true, or_self, ↓reduceIte, bind_assoc] at hw ⊢
  isteps
  refine hO.low hlow (by cancel) ?_
  isteps
  by_cases e : i = j
  · subst e
    simp only [decide_true, ↓reduceIte, bind_assoc, pure_bind] at hw ⊢
    refine hI (by cancel) fun o => ?_
    refine Triple.pre ?_ (hk _ _ _ (by exact ⟨rfl, by dsimp only; omega, by dsimp only; omega⟩) hw)
    cancel
  · simp only [e, decide_false, Bool.false_eq_true, ↓reduceIte, bind_assoc, pure_bind] at hw ⊢
    istep
    intro f _
    istep
    intro l _
    istep
    intro d _
    refine room_asg hw (by cancel) fun hlt hw => ?_
    istep
    intro c1 hw
    istep
    refine (uniqueCopyLoop_ref hr hr2 (by omega) hj hlt).use hw (by cancel) fun p q c1 hf hw => ?_
    istep
    rw [show p.2 - 1 + 1 = p.2 by omega]
    refine hO.set (by cancel) (i := p.2) (by at_it) fun o => ?_
    isteps
    refine Triple.pre ?_ (hk _ _ _ (by exact ⟨hf.1, by omega, by omega⟩) hw)
    cancel

theorem rotate_ref (hm : r.kind.type < 7) (hn1 : r.Real S) {nFirst : Nat} (h3 : At A r nFirst k) (hik : i ≤ k) (hkj : k ≤ j) {low : Nat → Nat} (hlow : ∀ q, q ≠ 0 → 2 ≤ low q) (hO : OutOk r o A B)
    (hI : OutIn r o A B last j) (hI2 : OutIn r o A B first i) :
    RefC (A ∗ S) (IAlgo.rotate low first nFirst last o) (Algo.rotate r.ref i k j) (fun p _ => i ≤ p ∧ p ≤ j) (fun p q => B p q ∗ S) := by
  intro β γ K' K c Ψ F Q hw hk
  have hc := cate_ge r.kind
  inz first hf0
  inz last hl0
  inz nFirst hd0
  unfold Algo.rotate at hw
  unfold IAlgo.rotate
  simp only [hf0, hl0, hd0, or_self, ↓reduceIte, bind_assoc] at hw ⊢
  isteps
  refine hO.low hlow (by cancel) ?_
  isteps
  by_cases e : i = k
  · subst e
    simp only [decide_true, ↓reduceIte, pure_bind] at hw ⊢
    refine hI (by cancel) fun o => ?_
    refine Triple.pre ?_ (hk _ _ _ (by exact ⟨by omega, by omega⟩) hw)
    cancel
  simp only [e, decide_false, Bool.false_eq_true, ↓reduceIte, bind_assoc] at hw ⊢
  isteps
  by_cases e2 : k = j
  · subst e2
    simp only [decide_true, ↓reduceIte, pure_bind] at hw ⊢
    refine hI2 (by cancel) fun o => ?_
    refine Triple.pre ?_ (hk _ _ _ (by exact ⟨by omega, by omega⟩) hw)
    cancel
  simp only [e2, decide_false, Bool.false_eq_true, ↓reduceIte, bind_assoc] at hw ⊢
  istep
  intro f _
  istep
  intro nf _
  istep
  intro l _
  istep
  intro nx _
  refine (rotateLoop1_ref hr hn1 hm (by omega) (Nat.le_refl _) (by omega) hj).use hw (by cancel) fun p q c1 hf hw => ?_
  refine hO.set (by cancel) (i := p.1) (by at_it) fun o => ?_
  istep
  refine (rotateLoop2_ref hr hn1 hm hf.2.1 (Nat.le_refl _) hf.2.2 hj).use hw (by cancel) fun _ q c1 hf2 hw => ?_
  rw [← sep_assoc, sep_comm (Ex c1), sep_assoc]
  refine Triple.ex_left' fun i' => ?_
  refine Triple.ex_left' fun k' => ?_
  isteps
  simp only [pure_bind] at hw ⊢
  refine Triple.pre ?_ (hk _ _ _ (by exact ⟨hf.1, by omega⟩) hw)
  cancel

theorem shuffle_ref (hm : r.kind.type < 7) (hn1 : r.Real S) (hrand : r.kind.cate = 4) {rr : Nat → Nat} (hrr : ∀ k, k < j - i → rr k ≤ k) :
    RefC (A ∗ S) (IAlgo.shuffle Z first last rr) (Algo.shuffle r.ref i j rr) (fun _ _ => True) (fun _ _ => A ∗ S) := by
  intro β γ K' K c Ψ F Q hw hk
  have hc := cate_ge r.kind
  inz first hf0
  inz last hl0
  unfold Algo.shuffle at hw
  unfold IAlgo.shuffle
  simp only [hf0, hl0, or_self, ↓reduceIte, bind_assoc] at hw ⊢
  istep
  istep
  istep
  istep
  intro f _
  istep
  intro l _
  istep
  rw [show ((j : Int) - i - 1).toNat = j - i - 1 by omega]
  generalize hN : j - i - 1 = N at hw ⊢
  cases N with
  | zero =>
    rw [Algo.shuffleLoop] at hw
    rw [shuffleLoop]
    simp only [pure_bind] at hw ⊢
    refine Triple.free_null ?_
    refine Triple.free_null ?_
    isteps
    refine Triple.pre ?_ (hk _ _ _ trivial hw)
    cancel
  | succ N =>
    rw [Algo.shuffleLoop] at hw
    rw [shuffleLoop]
    simp only [bind_assoc] at hw ⊢
    have h3 := hrr (N + 1) (by omega)
    refine copyMove_at (i := i) (k := i + (N + 1)) (x := f) (by at_it) hr (by cancel) (by omega) (by omega) (by omega) (.inl (by omega)) fun x _ => ?_
    refine copyMove_at (i := i) (k := i + rr (N + 1)) (x := f) (by at_it) hr (by cancel) (by omega) (by omega) (by omega) (.inl (by omega)) fun y _ => ?_
    istep
    intro c1 hw
    refine (shuffleLoop_ref (a := i + (N + 1)) (b := i + rr (N + 1)) hr hn1 hm (fun k hk => hrr k (by omega)) (by omega) (by omega)).use hw (by cancel) fun _ q c1 hf hw => ?_
    subst hf
    rw [← sep_assoc, sep_comm (Ex c1), sep_assoc]
    refine Triple.ex_left' fun a => ?_
    refine Triple.ex_left' fun b => ?_
    dsimp only
    isteps
    refine Triple.pre ?_ (hk _ _ _ trivial hw)
    cancel

end

theorem fillN_ref (hr : r.Ok True Z S) (hn : i + n ≤ r.len) (h1 : At A r first i) (hm : r.kind.type < 7) {value : Loc} (hv : value.1 ≠ 0) {low : Nat → Nat} (hlow : ∀ q, q ≠ 0 → 2 ≤ low q)
    (hO : OutOk r o A B) :
    RefC (A ∗ S) (IAlgo.fillN low first n value o) (Algo.fillN r.ref i n value) (fun p _ => p = i + n) (fun p q => B p q ∗ S) := by
  intro β γ K' K c Ψ F Q hw hk
  have hc := cate_ge r.kind
  inz first hf0
  unfold IAlgo.fillN
  simp only [hf0, hv, or_self, ↓reduceIte, bind_assoc] at hw ⊢
  isteps
  refine hO.low hlow (by cancel) ?_
  isteps
  refine (fillNLoop_ref hr hn).use hw (by cancel) fun p q c1 hf hw => ?_
  refine hO.set (by cancel) (i := i + n) (by at_it) fun o => ?_
  isteps
  simp only [pure_bind]
  subst hf
  refine Triple.pre ?_ (hk _ _ _ rfl hw)
  cancel

theorem generateN_ref (hr : r.Ok True Z S) (hn : i + n ≤ r.len) (h1 : At A r first i) (hm : r.kind.type < 7) {gen : Nat → V} {low : Nat → Nat} (hlow : ∀ q, q ≠ 0 → 2 ≤ low q)
    (hO : OutOk r o A B) (hI : OutIn r o A B first i) :
    RefC (A ∗ S) (IAlgo.generateN low first n gen o) (genNLoop r.ref gen i 0 n) (fun p _ => p = i + n) (fun p q => B p q ∗ S) := by
  intro β γ K' K c Ψ F Q hw hk
  have hc := cate_ge r.kind
  inz first hf0
  unfold IAlgo.generateN
  simp only [hf0, or_self, ↓reduceIte, bind_assoc] at hw ⊢
  isteps
  refine hO.low hlow (by cancel) ?_
  isteps
  cases n with
  | zero =>
    rw [genNLoop] at hw
    simp only [↓reduceIte, pure_bind] at hw ⊢
    refine hI (by cancel) fun o => ?_
    refine Triple.pre ?_ (hk _ _ _ rfl hw)
    cancel
  | succ N =>
    simp only [Nat.add_eq_zero_iff, Nat.succ_ne_self, and_false, ↓reduceIte, bind_assoc]
    isteps
    apply mallocO1
    · exact fun h => absurd trivial h
    intro t ht
    simp only [ht, ↓reduceIte, bind_assoc]
    refine (generateNLoop_ref hr hn).use hw (by cancel) fun p q c1 hf hw => ?_
    rw [← sep_assoc, sep_comm (Ex c1), sep_assoc]
    refine Triple.ex_left' fun w => ?_
    rw [sep_assoc]
    refine Triple.pure_left fun h3 => ?_
    obtain ⟨w, rfl⟩ := Option.ne_none_iff_exists'.1 (h3 (by omega))
    rw [sep_assoc]
    refine Triple.pure_left fun _ => ?_
    refine hO.set (by cancel) (i := i + (N + 1)) (by at_it) fun o => ?_
    refine Triple.pre (P' := pts (t, 1) (.obj (some w)) ∗ blk t 1 ∗ _) (by cancel) ?_
    step
    call freeV1
    intro _
    rw [emp_sep]
    isteps
    simp only [pure_bind]
    subst hf
    refine Triple.pre ?_ (hk _ _ _ rfl hw)
    cancel

theorem rotateCopy_ref (hr : r.Ok True Z S) (hr2 : r2.Ok True Z S) {nFirst : Nat} (hik : i ≤ k) (hkj : k ≤ j) (hj : j ≤ r.len) (h1 : At A r first i) (h4 : At A r nFirst k) (h2 : At A r last j)
    (h3 : At A r2 dFirst a) (hm : r2.kind.type < 7) (ha : a + (j - i) ≤ r2.len) {low : Nat → Nat} (hlow : ∀ q, q ≠ 0 → 2 ≤ low q) (hO : OutOk r2 o A B) :
    RefC (A ∗ S) (IAlgo.rotateCopy low first nFirst last dFirst o) (Algo.rotateCopy r.ref i k j r2.ref a) (fun p q => q.1 = p.1 ∧ p.2 = a + (j - i)) (fun p q => B p.2 q.2 ∗ S) := by
  intro β γ K' K c Ψ F Q hw hk
  have hc := cate_ge r.kind
  have hc2 := cate_ge r2.kind
  inz first hf0
  inz last hl0
  inz nFirst hn0
  inz dFirst hd0
  unfold Algo.rotateCopy at hw
  unfold IAlgo.rotateCopy
  simp only [hf0, hl0, hn0, hd0, or_self, ↓reduceIte, bind_assoc, pure_bind] at hw ⊢
  istep
  istep
  istep
  istep
  refine hO.low hlow (by cancel) ?_
  istep
  istep
  intro f _
  istep
  intro nf _
  istep
  intro l _
  istep
  intro d _
  refine (copy_ref (A := It r2 d a ∗ It r nf k ∗ It r l j) (B := fun b e => ⌜e = d⌝ ∗ It r2 d b ∗ It r nf k ∗ It r l j) hr hkj hj (by at_it) (by at_it) hr2 hm (by at_it) (by omega) hlow OutOk.loc).use hw
    (by cancel) fun p q c1 hf hw => ?_
  rw [← sep_assoc, sep_comm (Ex c1), sep_assoc, sep_assoc, sep_assoc]
  refine Triple.pure_left fun hq => ?_
  simp only [hq]
  refine (copy_ref (A := It r2 d p.2 ∗ It r f i ∗ It r nf k) (B := fun b e => ⌜e = d⌝ ∗ It r2 d b ∗ It r f i ∗ It r nf k) hr hik (by omega) (by at_it) (by at_it) hr2 hm (by at_it) (by omega) hlow OutOk.loc).use hw
    (by cancel) fun p2 q2 c1 hf2 hw => ?_
  rw [← sep_assoc, sep_comm (Ex c1), sep_assoc, sep_assoc, sep_assoc]
  refine Triple.pure_left fun hq => ?_
  simp only [hq]
  refine hO.set (by cancel) (i := p2.2) (by at_it) fun o => ?_
  isteps
  refine Triple.pre ?_ (hk _ _ _ (by exact ⟨by dsimp only; omega, by dsimp only; omega⟩) hw)
  cancel

end CC.IAlgo
