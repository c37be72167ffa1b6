import Verif.Adapter.History
import Verif.Algo.Cost
import Verif.Vec.Amort
import Verif.Deq.Amort
import Verif.Props.CSteps
import Verif.Props.CAccess
import Verif.Props.CListTime
/-!
# The time of the adapters

`PT p P m Q`: a run of `m` that starts with `p` credits and ends, pays one credit for each memory access and ends with `q` credits left (or more) such that `Q r q`.  A container's
representation holds the credits that its potential requires, so that the amortised costs of the backends compose.  That runs end is known from the functional specifications.
-/
namespace CC.Adapter
open CC CC.Tac CC.Algo
variable {V α β γ : Type} {P P' R : HProp V} {p p0 x : Nat}

/-- `m` started in `P` with `p` credits, if it ends, ends in `Q r q` with `q` credits left -/
def PT (p : Nat) (P : HProp V) (m : M V α) (Q : α → Nat → HProp V) : Prop :=
  ∀ (s : Mem V) (F : HProp V) (a : α) (s' : Mem V), (∀ t, s.orc t ≠ 0) → (P ∗ F) s.cells → m s = some (.ok (a, s')) →
    s'.orc = s.orc ∧ ∃ q, s'.clk + q ≤ s.clk + p ∧ (Q a q ∗ F) s'.cells

theorem PT.of {m : M V α} {Q : α → HProp V} {Q' : α → Nat → HProp V} {k : Nat} (h : TripleC True P m Q k) (hk : k + p ≤ p0) (hq : ∀ a, Q a ⊢ₛ Q' a p) : PT p0 P m Q' := by
  intro s F a s' ho hs e
  obtain ⟨a2, s2, e2, o2, c2, q2⟩ := h s F (fun _ => ho) hs
  rw [e] at e2
  cases e2
  exact ⟨o2, p, by omega, sep_mono (hq a) (ent_refl _) _ q2⟩

theorem PT.triple {m : M V α} {Q : α → HProp V} {Q' : α → Nat → HProp V} (h : Triple True P m Q) (hp : PT p P m Q') : TripleC True P m Q p := by
  intro s F ho hs
  obtain ⟨a, s', e, o, q⟩ := h s F ho hs
  obtain ⟨_, q', h1, _⟩ := hp s F a s' (ho trivial) hs e
  exact ⟨a, s', e, o, by omega, q⟩

theorem PT.bind {m : M V α} {f : α → M V β} {Q : α → Nat → HProp V} {S : β → Nat → HProp V} (h : PT p P m Q) (hk : ∀ a q, PT q (Q a q) (f a) S) :
    PT p P (m >>= f) S := by
  intro s F b s' ho hs e
  obtain ⟨a, s1, e1, e2⟩ := bind_inv e
  obtain ⟨o1, q, c1, h1⟩ := h s F a s1 ho hs e1
  obtain ⟨o2, q2, c2, h2⟩ := hk a q s1 F b s' (by rw [o1]; exact ho) h1 e2
  exact ⟨by rw [o2, o1], q2, by omega, h2⟩

theorem PT.pre {m : M V α} {Q : α → Nat → HProp V} (hp : P ⊢ₛ P') (h : PT p P' m Q) : PT p P m Q :=
  fun s F a s' ho hs e => h s F a s' ho (sep_mono hp (ent_refl _) _ hs) e

theorem PT.post {m : M V α} {Q Q' : α → Nat → HProp V} (h : PT p P m Q) (hq : ∀ a q, Q a q ⊢ₛ Q' a q) : PT p P m Q' := by
  intro s F a s' ho hs e
  obtain ⟨o, q, c, h1⟩ := h s F a s' ho hs e
  exact ⟨o, q, c, sep_mono (hq a q) (ent_refl _) _ h1⟩

theorem PT.frame {m : M V α} {Q : α → Nat → HProp V} (h : PT p P m Q) : PT p (P ∗ R) m (fun a q => Q a q ∗ R) := by
  intro s F a s' ho hs e
  obtain ⟨o, q, c, h1⟩ := h s (R ∗ F) a s' ho (by rw [← sep_assoc]; exact hs) e
  exact ⟨o, q, c, by rw [sep_assoc]; exact h1⟩

/-- credits that are not used stay -/
theorem PT.more {m : M V α} {Q : α → Nat → HProp V} (x : Nat) (h : PT p P m Q) (hp : p + x ≤ p0) : PT p0 P m (fun a q => ∃ₛ q0, ⌜q = q0 + x⌝ ∗ Q a q0) := by
  intro s F a s' ho hs e
  obtain ⟨o, q, c, h1⟩ := h s F a s' ho hs e
  refine ⟨o, q + x, by omega, ?_⟩
  refine (show _ ⊢ₛ _ from ?_) _ h1
  refine sep_mono ?_ (ent_refl _)
  xexists q
  cancel

theorem PT.ex_left {m : M V α} {Q : α → Nat → HProp V} {P : γ → HProp V} (h : ∀ c, PT p (P c) m Q) : PT p (hex P) m Q := by
  intro s F a s' ho hs e
  rw [hex_sep] at hs
  obtain ⟨c, hs⟩ := hs
  exact h c s F a s' ho hs e

theorem PT.pure_left {m : M V α} {Q : α → Nat → HProp V} {φ : Prop} (h : φ → PT p P m Q) : PT p (⌜φ⌝ ∗ P) m Q := by
  intro s F a s' ho hs e
  rw [sep_assoc] at hs
  obtain ⟨hφ, hs⟩ := hpure_sep_apply.1 hs
  exact h hφ s F a s' ho hs e

theorem PT.ret {Q : α → Nat → HProp V} {a : α} (h : P ⊢ₛ Q a p) : PT p P (pure a) Q := by
  intro s F b s' ho hs e
  cases e
  exact ⟨rfl, p, Nat.le_refl _, sep_mono h (ent_refl _) _ hs⟩

theorem PT.fact {m : M V α} {Q : α → Nat → HProp V} {φ : Prop} (hφ : ∀ F h, (P ∗ F) h → φ) (h : φ → PT p P m Q) : PT p P m Q :=
  fun s F a s' ho hs e => h (hφ F _ hs) s F a s' ho hs e

theorem PT.ld {l : Loc} {n : Nat} {K : Nat → M V β} {Q : β → Nat → HProp V} (h : PT p (pts l (.num n) ∗ P) (K n) Q) :
    PT (p + 1) (pts l (.num n) ∗ P) (CC.ldN l >>= K) Q := by
  have h1 : Triple True (pts l (.num n) ∗ P) (CC.ldN l) (fun r => ⌜r = n⌝ ∗ (pts l (.num n) ∗ P)) := by
    rw [← bind_pure (CC.ldN l)]
    step
    apply Triple.ret
    cancel
  refine PT.bind (PT.of (p := p) (Q' := fun r q => ⌜q = p⌝ ∗ ⌜r = n⌝ ∗ (pts l (.num n) ∗ P)) (k := 1) (TripleC.intro h1 (Cost.ldN l) (Le.refl _)) (by omega) ?_) ?_
  · intro a
    exact ent_pure_right rfl (ent_refl _)
  · intro a q
    refine PT.pure_left fun hq => PT.pure_left fun hn => ?_
    rw [hq, hn]
    exact h

theorem PT.seen {r : Loc} {Q : Out V → Nat → HProp V} (h : ∀ a, P ⊢ₛ Q a p) : PT (p + 1) P (look r) Q := by
  intro s F b s' ho hs e
  unfold Adapter.look at e
  split at e
  · cases e
    exact ⟨rfl, p, by omega, sep_mono (h _) (ent_refl _) _ hs⟩
  · obtain ⟨v, s1, e1, e2⟩ := bind_inv e
    cases e2
    have hc := Cost.iff.1 (Cost.ldV r) _ _ _ e1
    have : s'.cells = s.cells ∧ s'.orc = s.orc := by
      unfold ldV at e1
      obtain ⟨w, s2, e3, e4⟩ := bind_inv e1
      rcases load_cases s r with h1 | ⟨x, h1⟩
      · rw [h1] at e3; cases e3
      · rw [h1] at e3
        cases e3
        cases w with
        | obj o =>
          cases o with
          | some v => cases e4; exact ⟨rfl, rfl⟩
          | none => cases e4
        | _ => cases e4
    exact ⟨this.2, p, by omega, by rw [this.1]; exact sep_mono (h _) (ent_refl _) _ hs⟩

end CC.Adapter
