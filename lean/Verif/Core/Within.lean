import Verif.Core.Cost
import Verif.Core.Tac
/-!
# Bounding the memory accesses of loops

`within k m` is `m` with an alarm: a run that makes more than `k` memory accesses is undefined behaviour.  A `Triple` about `within k m` is a `TripleC` about `m` with bound `k`,
and is proved with the tactics for `Triple`, paying for each statement as it comes (`pay`).
-/
namespace CC
open CC.Tac
variable {V α β : Type} {nf : Prop}

/-- `m`, but a run with more than `k` memory accesses is undefined behaviour -/
def within (k : Nat) (m : M V α) : M V α := fun s =>
  match m s with
  | some (.ok (a, s')) => if s'.clk ≤ s.clk + k then some (.ok (a, s')) else some (.error .ub)
  | r => r

theorem within_inv {k : Nat} {m : M V α} {s s' : Mem V} {a : α} (h : within k m s = some (.ok (a, s'))) :
    m s = some (.ok (a, s')) ∧ s'.clk ≤ s.clk + k := by
  unfold within at h
  split at h
  · split at h
    · cases h
      exact ⟨by assumption, by assumption⟩
    · cases h
  · rename_i r hn
    exact absurd h (hn _ _)

theorem within_ok {k : Nat} {m : M V α} {s s' : Mem V} {a : α} (h : m s = some (.ok (a, s'))) (hk : s'.clk ≤ s.clk + k) :
    within k m s = some (.ok (a, s')) := by
  unfold within
  rw [h]
  simp only
  rw [if_pos hk]

theorem TripleC.of_within {P : HProp V} {Q : α → HProp V} {m : M V α} {k : Nat} (h : Triple nf P (within k m) Q) : TripleC nf P m Q k := by
  intro s F ho hs
  obtain ⟨a, s', e, o, q⟩ := h s F ho hs
  obtain ⟨e, c⟩ := within_inv e
  exact ⟨a, s', e, o, c, q⟩

theorem TripleC.within {P : HProp V} {Q : α → HProp V} {m : M V α} {k : Nat} (h : TripleC nf P m Q k) : Triple nf P (within k m) Q := by
  intro s F ho hs
  obtain ⟨a, s', e, o, c, q⟩ := h s F ho hs
  exact ⟨a, s', within_ok e c, o, q⟩

theorem Le.iff {m m' : M V α} : Le m m' ↔ ∀ s a s', m s = some (.ok (a, s')) → m' s = some (.ok (a, s')) := by
  unfold Le; exact Iff.rfl
theorem Cost.iff {m : M V α} {k : Nat} : Cost m k ↔ ∀ s a s', m s = some (.ok (a, s')) → s'.clk ≤ s.clk + k := by
  unfold Cost; exact Iff.rfl

theorem within_pure (k : Nat) (a : α) : within k (pure a : M V α) = pure a := by
  funext s
  exact within_ok (m := pure a) (s := s) (a := a) (s' := s) rfl (Nat.le_add_right _ _)

theorem within_ite {k : Nat} {p : Prop} [Decidable p] {m m' : M V α} : within k (if p then m else m') = if p then within k m else within k m' := by
  split <;> rfl

theorem within_mono {k k' : Nat} {m : M V α} (h : k ≤ k') : Le (within k m) (within k' m) := by
  rw [Le.iff]
  intro s a s' e
  obtain ⟨e, c⟩ := within_inv e
  exact within_ok e (by omega)

theorem within_cost {m : M V α} {c k : Nat} (h : Cost m c) (hk : c ≤ k) : Le m (within k m) := by
  rw [Le.iff]
  intro s a s' e
  have := Cost.iff.1 h _ _ _ e
  exact within_ok e (by omega)

/-- pay `c` for the first statement -/
theorem within_bind {m : M V α} {f : α → M V β} {c k : Nat} (h : Cost m c) (hk : c ≤ k) : Le (m >>= fun a => within (k - c) (f a)) (within k (m >>= f)) := by
  rw [Le.iff]
  intro s b s' e
  obtain ⟨a, s1, e1, e2⟩ := bind_inv e
  obtain ⟨e2, c2⟩ := within_inv e2
  have := Cost.iff.1 h _ _ _ e1
  refine within_ok ?_ (by omega)
  rw [bind_ok e1]
  exact e2

/-- pay `c` for the first statement, a part with a loop -/
theorem within_bindW {m : M V α} {f : α → M V β} {k : Nat} (c : Nat) (hk : c ≤ k) :
    Le (within c m >>= fun a => within (k - c) (f a)) (within k (m >>= f)) := by
  rw [Le.iff]
  intro s b s' e
  obtain ⟨a, s1, e1, e2⟩ := bind_inv e
  obtain ⟨e1, c1⟩ := within_inv e1
  obtain ⟨e2, c2⟩ := within_inv e2
  refine within_ok ?_ (by omega)
  rw [bind_ok e1]
  exact e2

/-- pay for the first statement of a program `within k (m >>= f)`, whose cost `cost_step` finds -/
macro "pay" : tactic => `(tactic| (refine Triple.le (within_bind (c := ?c) ?hc ?hle) ?hk; rotate_left; (focus ((repeat' cost_step); done)); (focus (first | omega | (simp only [List.length_cons, List.length_nil] at *; omega)))))
/-- pay for the last statement -/
macro "payT" : tactic => `(tactic| (refine Triple.le (within_cost (c := ?c) ?hc ?hle) ?hk; rotate_left; (focus ((repeat' cost_step); done)); (focus (first | omega | (simp only [List.length_cons, List.length_nil] at *; omega)))))
/-- pay for the first statement and use its specification -/
macro "callP " t:term : tactic => `(tactic| (pay; call $t))
/-- execute primitive statements, paying for them -/
macro "stepsP" : tactic => `(tactic| repeat (first | step | (pay; step) | (payT; step)))
/-- pay `c` for the first statement -/
macro "payW " c:term : tactic => `(tactic| refine Triple.le (within_bindW $c (by first | omega | (simp only [List.length_cons, List.length_nil] at *; omega))) ?_)
/-- the end of a program -/
macro "retP" : tactic => `(tactic| ((try rw [within_pure]); apply Triple.ret))
/-- a branch -/
macro "iteP" : tactic => `(tactic| ((try rw [within_ite]); apply Triple.ite))

end CC
