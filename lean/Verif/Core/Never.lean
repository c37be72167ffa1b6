import Verif.Core.Err
/-!
# Proving that a program never returns

`Never nf P m`: from every memory that satisfies `P` (as a whole), `m` runs for ever; `nf`: provided that the allocator does not fail.
-/
namespace CC
variable {V α β ι₁ ι₂ : Type} {nf : Prop}

def Never (nf : Prop) (P : HProp V) (m : M V α) : Prop := ∀ s : Mem V, (nf → ∀ t, s.orc t ≠ 0) → P s.cells → m s = none

theorem Never.bind {P F : HProp V} {m : M V α} {Q : α → HProp V} {k : α → M V β} (h : Triple nf P m Q) (hk : ∀ a, Never nf (Q a ∗ F) (k a)) :
    Never nf (P ∗ F) (m >>= k) := by
  intro s ho hs
  obtain ⟨a, s', h1, h2, h3⟩ := h.run (F := F) ho hs
  rw [bind_ok h1]
  exact hk a s' (by rw [h2]; exact ho) h3

theorem bind_none {m : M V α} {k : α → M V β} {s : Mem V} (h : m s = none) : (m >>= k) s = none := by
  simp [Bind.bind, StateT.bind, ExceptT.bind, ExceptT.mk, Option.bind, h]

theorem Never.head {P : HProp V} {m : M V α} {k : α → M V β} (h : Never nf P m) : Never nf P (m >>= k) :=
  fun s ho hs => bind_none (h s ho hs)

theorem Never.pre {P P' : HProp V} {m : M V α} (he : P ⊢ₛ P') (h : Never nf P' m) : Never nf P m := fun s ho hs => h s ho (he _ hs)

theorem Never.pure_left {p : Prop} {P : HProp V} {m : M V α} (h : p → Never nf P m) : Never nf (⌜p⌝ ∗ P) m := by
  intro s ho hs
  rw [hpure_sep_apply] at hs
  exact h hs.1 s ho hs.2

theorem Never.fact {p : Prop} {P : HProp V} {m : M V α} (hp : ∀ h, P h → p) (h : p → Never nf P m) : Never nf P m :=
  fun s ho hs => h (hp _ hs) s ho hs

theorem Never.ex {P : β → HProp V} {F : HProp V} {m : M V α} (h : ∀ b, Never nf (P b ∗ F) m) : Never nf ((∃ₛ b, P b) ∗ F) m := by
  intro s ho hs
  rw [hex_sep] at hs
  obtain ⟨b, hs⟩ := hs
  exact h b s ho hs

/-- a step that is known to end with a certain result -/
theorem Never.step {P P' F : HProp V} {m : M V α} {x : α} {k : α → M V β} (h : Triple nf P m (fun r => ⌜r = x⌝ ∗ P')) (hk : Never nf (P' ∗ F) (k x)) :
    Never nf (P ∗ F) (m >>= k) := by
  refine Never.bind h fun r => ?_
  rw [sep_assoc]
  exact Never.pure_left fun e => e ▸ hk

theorem Never.adm {P : HProp V} : Lean.Order.admissible (fun m : M V α => Never nf P m) := by
  apply Lean.Order.admissible_pi
  intro s
  apply Lean.Order.admissible_pi
  intro _
  apply Lean.Order.admissible_pi
  intro _
  exact Lean.Order.admissible_apply (β := fun _ => Option (Except Fault (α × Mem V))) (fun _ f => f = none) s (Lean.Order.admissible_flatOrder _ rfl)

theorem Never.adm1 {P : ι₁ → HProp V → Prop} :
    Lean.Order.admissible (fun f : ι₁ → M V α => ∀ x R, P x R → Never nf R (f x)) := by
  apply Lean.Order.admissible_pi
  intro x
  apply Lean.Order.admissible_pi
  intro R
  apply Lean.Order.admissible_pi
  intro _
  exact Lean.Order.admissible_apply (β := fun _ => M V α) (fun _ (f : M V α) => Never nf R f) x Never.adm

theorem Never.adm2 {P : ι₁ → ι₂ → HProp V → Prop} :
    Lean.Order.admissible (fun f : ι₁ → ι₂ → M V α => ∀ x y R, P x y R → Never nf R (f x y)) := by
  apply Lean.Order.admissible_pi
  intro x
  exact Lean.Order.admissible_apply (β := fun _ => ι₂ → M V α) (fun _ (f : ι₂ → M V α) => ∀ y R, P x y R → Never nf R (f y)) x (Never.adm1 (P := P x))

end CC
