import Verif.Vec.Time2
import Verif.Vec.History
/-!
# Amortised time at the end of a vector

The potential of a vector is `2 * size - capacity`: a reallocation copies `size = capacity` elements and leaves a potential of at most 2; every other
operation at the end changes the potential by at most 2.
-/
namespace CC.Vec
open CC CC.Tac
variable {V W : Type} {nf : Prop} {T : Nat → Ops V} {ty : Nat}
variable {v b cap : Nat} {ws : List W} {R : HProp V} {ρ : Loc → W}

/-- the operations at the end -/
def AtEnd {nf : Prop} {o : Ops V} (e : ElemSpec nf o W) (R : HProp V) (ρ : Loc → W) : Op → Prop
  | .pushBack a => Holds e R a (ρ a)
  | .popBack => True
  | _ => False

/-- what the operations at the end do to the contents -/
def endOf (ρ : Loc → W) : List Op → List W → List W
  | [], ws => ws
  | .pushBack a :: ops, ws => endOf ρ ops (ws ++ [ρ a])
  | .popBack :: ops, ws => endOf ρ ops ws.dropLast
  | _ :: ops, ws => endOf ρ ops ws

theorem amortised {e : ElemSpec True (T ty) W} (hp : e.Plain) {t : Nat} (hT : Takes (T ty) t) {ops : List Op} (ho : ∀ op ∈ ops, AtEnd e R ρ op) {K : Nat}
    (hK : (26 + 3 * t) * ops.length + (t + 2) * (2 * ws.length - cap) ≤ K) :
    Triple True (isVec e v b cap ws ∗ R) (within K (runOps T v ops))
      (fun _ => ∃ₛ b' cap', isVec e v b' cap' (endOf ρ ops ws) ∗ R) := by
  induction ops generalizing b cap ws K with
  | nil =>
    rw [runOps, endOf]
    retP
    xexists b, cap
    cancel
  | cons op ops ih =>
    rw [List.length_cons, Nat.mul_succ] at hK
    have ih' := fun {b cap ws K} => ih (fun o h => ho o (List.mem_cons_of_mem _ h)) (b := b) (cap := cap) (ws := ws) (K := K)
    clear ih
    have ho' := ho op List.mem_cons_self
    rw [runOps]
    have key : ∀ {n p p' : Nat}, n + p' ≤ p + 2 → t * n + 2 * n + (t + 2) * p' ≤ (t + 2) * p + (2 * t + 4) := by
      intro n p p' h
      have := Nat.mul_le_mul_left (t + 2) h
      rw [Nat.mul_add, Nat.mul_add, Nat.add_mul t 2 n] at this
      omega
    have key0 : ∀ {p p' : Nat}, p' ≤ p + 2 → (t + 2) * p' ≤ (t + 2) * p + (2 * t + 4) := by
      intro p p' h
      have := key (n := 0) (p := p) (p' := p') (by omega)
      simpa using this
    cases op with
    | pushBack a =>
      obtain ⟨ha, R', hR⟩ : Holds e R a (ρ a) := ho'
      rw [endOf]
      apply vec_facts; intro _ hcap
      generalize hB : 6 + t + (if ws.length = cap then 16 + t * ws.length + 2 * ws.length else 0) = B
      have hBK : (if ws.length = cap then t * ws.length + 2 * ws.length else 0) + (22 + t) ≥ B := by
        rw [← hB]; split <;> omega
      have hle : B ≤ K := by
        by_cases h : ws.length = cap
        · rw [if_pos h] at hBK
          have := key (n := ws.length) (p := 2 * ws.length - cap) (p' := 0) (by omega)
          omega
        · rw [if_neg h] at hBK; omega
      payW B
      show Triple True _ (within B (pushBack T v a) >>= _) _
      have h1 := pushBack_time (e := e) (v := v) (b := b) (cap := cap) (ws := ws) (value := a) (w := ρ a) ha (Or.inl hp) hT (Nat.le_of_eq hB)
      rw [hR]
      call h1
      intro _
      xintro b' cap' ws' h
      obtain ⟨rfl, h2, h3⟩ := h.resolve_right (fun h => h.1 trivial)
      refine Triple.pre (P' := isVec e v b' cap' (ws ++ [ρ a]) ∗ R) (by rw [hR]; cancel) ?_
      rw [← hR]
      refine ih' ?_
      rw [List.length_append, List.length_singleton]
      by_cases h : ws.length = cap
      · rw [if_pos h] at hBK h2
        have := key (n := ws.length) (p := 2 * ws.length - cap) (p' := 2 * (ws.length + 1) - cap') (by
          rw [h2]; unfold newCap; split <;> omega)
        omega
      · rw [if_neg h] at hBK h2
        have := key0 (p := 2 * ws.length - cap) (p' := 2 * (ws.length + 1) - cap') (by omega)
        omega
    | popBack =>
      rw [endOf]
      payW (8 + t)
      show Triple True _ (within (8 + t) (popBack T v) >>= _) _
      call (popBack_time (e := e) hT (Nat.le_refl (8 + t)))
      intro _
      refine ih' ?_
      have := key0 (p := 2 * ws.length - cap) (p' := 2 * ws.dropLast.length - cap) (by rw [List.length_dropLast]; omega)
      omega
    | _ => exact absurd ho' (by simp [AtEnd])

end CC.Vec
