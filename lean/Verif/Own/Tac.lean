import Verif.Own.Prim
/-!
# A tactic for simulation proofs
-/
namespace CC.Own
open CC CC.Tac
variable {V W α β : Type} {ι₁ ι₂ ι₃ ι₄ ι₅ : Type} {o : AOps V} {e : AElem o W} {F : HProp V} {G : α → β → HProp V}

theorem Sim.adm1 {f : ι₁ → M V β} : Lean.Order.admissible (fun f' : ι₁ → M W α => ∀ x, Sim e F (f' x) (f x) G) := by
  apply Lean.Order.admissible_pi; intro x
  exact Lean.Order.admissible_apply (β := fun _ => M W α) (fun _ g => Sim e F g (f x) G) x Sim.adm
theorem Sim.adm2 {f : ι₁ → ι₂ → M V β} : Lean.Order.admissible (fun f' : ι₁ → ι₂ → M W α => ∀ x y, Sim e F (f' x y) (f x y) G) := by
  apply Lean.Order.admissible_pi; intro x
  exact Lean.Order.admissible_apply (β := fun _ => ι₂ → M W α) (fun _ g => ∀ y, Sim e F (g y) (f x y) G) x Sim.adm1
theorem Sim.adm3 {f : ι₁ → ι₂ → ι₃ → M V β} : Lean.Order.admissible (fun f' : ι₁ → ι₂ → ι₃ → M W α => ∀ x y z, Sim e F (f' x y z) (f x y z) G) := by
  apply Lean.Order.admissible_pi; intro x
  exact Lean.Order.admissible_apply (β := fun _ => ι₂ → ι₃ → M W α) (fun _ g => ∀ y z, Sim e F (g y z) (f x y z) G) x Sim.adm2
theorem Sim.adm4 {f : ι₁ → ι₂ → ι₃ → ι₄ → M V β} : Lean.Order.admissible (fun f' : ι₁ → ι₂ → ι₃ → ι₄ → M W α => ∀ x y z u, Sim e F (f' x y z u) (f x y z u) G) := by
  apply Lean.Order.admissible_pi; intro x
  exact Lean.Order.admissible_apply (β := fun _ => ι₂ → ι₃ → ι₄ → M W α) (fun _ g => ∀ y z u, Sim e F (g y z u) (f x y z u) G) x Sim.adm3

/-- one step of a simulation proof -/
syntax "sim1" : tactic
macro_rules | `(tactic| sim1) => `(tactic| with_reducible refine SimE.bind ?_ (fun _ => ?_))
macro_rules | `(tactic| sim1) => `(tactic| with_reducible refine Sim.ite (fun _ => ?_) (fun _ => ?_))
macro_rules | `(tactic| sim1) => `(tactic| with_reducible exact SimE.pure)
macro_rules | `(tactic| sim1) => `(tactic| with_reducible exact S_asg)
macro_rules | `(tactic| sim1) => `(tactic| with_reducible exact S_swp)
macro_rules | `(tactic| sim1) => `(tactic| with_reducible exact S_dec)
set_option hygiene false in
macro_rules | `(tactic| sim1) => `(tactic| with_reducible exact S_cmp hf)
set_option hygiene false in
macro_rules | `(tactic| sim1) => `(tactic| with_reducible exact S_test hg)
set_option hygiene false in
macro_rules | `(tactic| sim1) => `(tactic| (with_reducible apply hc))
set_option hygiene false in
macro_rules | `(tactic| sim1) => `(tactic| (with_reducible apply ih))
macro "sim" : tactic => `(tactic| repeat (first | sim1 | dsimp only))

end CC.Own
