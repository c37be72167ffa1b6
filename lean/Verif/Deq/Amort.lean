import Verif.Deq.Time2
import Verif.Deq.History
/-!
# Amortised time at the ends of a deque

The potential of a deque with `lo` and `hi` free slots at its ends and `cap` slots in all is `cap - 4 * min lo hi`: a reallocation copies at most `cap` elements
and divides the free slots evenly, which leaves a potential of at most 6; every other operation at an end changes the potential by at most 4.
-/
namespace CC.Deq
open CC CC.Tac
open CC.Vec (newCap)
variable {V W : Type} {nf : Prop} {T : Nat → Ops V} {ty : Nat}
variable {v b lo hi : Nat} {ws : List W} {R : HProp V} {ρ : Loc → W}

/-- the operations at the ends -/
def AtEnds {nf : Prop} {o : Ops V} (e : ElemSpec nf o W) (R : HProp V) (ρ : Loc → W) : Op → Prop
  | .pushBack a => Holds e R a (ρ a)
  | .pushFront a => Holds e R a (ρ a)
  | .popBack => True
  | .popFront => True
  | _ => False

/-- what the operations at the ends do to the contents -/
def endsOf (ρ : Loc → W) : List Op → List W → List W
  | [], ws => ws
  | .pushBack a :: ops, ws => endsOf ρ ops (ws ++ [ρ a])
  | .pushFront a :: ops, ws => endsOf ρ ops (ρ a :: ws)
  | .popBack :: ops, ws => endsOf ρ ops ws.dropLast
  | .popFront :: ops, ws => endsOf ρ ops ws.tail
  | _ :: ops, ws => endsOf ρ ops ws

/-- the potential of a deque -/
def pot (lo n hi : Nat) : Nat := lo + n + hi - 4 * min lo hi

theorem pot_grow_back {lo n hi lo' hi' : Nat} (h : hi = 0) (h1 : lo' = Grown lo n hi) (h2 : lo' + n + hi' + 1 = newCap (lo + n + hi) 2 n) :
    n + pot lo' (n + 1) hi' ≤ pot lo n hi + 10 := by
  unfold Grown at h1
  unfold pot
  generalize hN : newCap (lo + n + hi) 2 n = N at *
  unfold newCap at hN
  split at hN <;> omega

theorem pot_grow_front {lo n hi lo' hi' : Nat} (h : lo = 0) (h1 : lo' + 1 = Grown lo n hi) (h2 : lo' + 1 + n + hi' = newCap (lo + n + hi) 2 n) :
    n + pot lo' (n + 1) hi' ≤ pot lo n hi + 10 := by
  unfold Grown at h1
  unfold pot
  generalize hN : newCap (lo + n + hi) 2 n = N at *
  unfold newCap at hN
  split at hN <;> omega

theorem amortised {e : ElemSpec True (T ty) W} (hp : e.Plain) {t : Nat} (hT : Takes (T ty) t) {ops : List Op} (ho : ∀ op ∈ ops, AtEnds e R ρ op) {K : Nat}
    (hK : (43 + 11 * t) * ops.length + (t + 2) * pot lo ws.length hi ≤ K) :
    Triple True (isDeq e v b lo hi ws ∗ R) (within K (runOps T v ops))
      (fun _ => ∃ₛ b' lo' hi', isDeq e v b' lo' hi' (endsOf ρ ops ws) ∗ R) := by
  induction ops generalizing b lo hi ws K with
  | nil =>
    rw [runOps, endsOf]
    retP
    xexists b, lo, hi
    cancel
  | cons op ops ih =>
    rw [List.length_cons, Nat.mul_succ] at hK
    have ih' := fun {b lo hi ws K} => ih (fun o h => ho o (List.mem_cons_of_mem _ h)) (b := b) (lo := lo) (hi := hi) (ws := ws) (K := K)
    clear ih
    have ho' := ho op List.mem_cons_self
    rw [runOps]
    have key : ∀ {n p p' : Nat}, n + p' ≤ p + 10 → t * n + 2 * n + (t + 2) * p' ≤ (t + 2) * p + (10 * t + 20) := by
      intro n p p' h
      have := Nat.mul_le_mul_left (t + 2) h
      rw [Nat.mul_add, Nat.mul_add, Nat.add_mul t 2 n] at this
      omega
    have key0 : ∀ {p p' : Nat}, p' ≤ p + 10 → (t + 2) * p' ≤ (t + 2) * p + (10 * t + 20) := by
      intro p p' h
      have := key (n := 0) (p := p) (p' := p') (by omega)
      simpa using this
    cases op with
    | pushBack a =>
      obtain ⟨ha, R', hR⟩ : Holds e R a (ρ a) := ho'
      rw [endsOf]
      generalize hB : 6 + t + (if hi = 0 then 17 + t * ws.length + 2 * ws.length else 0) = B
      have hBK : (if hi = 0 then t * ws.length + 2 * ws.length else 0) + (23 + t) ≥ B := by
        rw [← hB]; split <;> omega
      have hle : B ≤ K := by
        by_cases h : hi = 0
        · rw [if_pos h] at hBK
          have : ws.length ≤ pot lo ws.length hi := by unfold pot; omega
          have := key (n := ws.length) (p := pot lo ws.length hi) (p' := 0) (by omega)
          omega
        · rw [if_neg h] at hBK; omega
      payW B
      show Triple True _ (within B (pushBack T v a) >>= _) _
      have h1 := pushBack_time (e := e) (v := v) (b := b) (lo := lo) (hi := hi) (ws := ws) (value := a) (w := ρ a) ha (Or.inl hp) hT (Nat.le_of_eq hB)
      rw [hR]
      call h1
      intro _
      xintro b' lo' hi' ws' h
      obtain ⟨rfl, h2, h3⟩ := h.resolve_right (fun h => h.1 trivial)
      refine Triple.pre (P' := isDeq e v b' lo' hi' (ws ++ [ρ a]) ∗ R) (by rw [hR]; cancel) ?_
      rw [← hR]
      refine ih' ?_
      rw [List.length_append, List.length_singleton]
      by_cases h : hi = 0
      · rw [if_pos h] at hBK
        have := key (pot_grow_back h (h3 h).1 (h3 h).2)
        omega
      · rw [if_neg h] at hBK
        have := h2 (by omega)
        have := key0 (p := pot lo ws.length hi) (p' := pot lo' (ws.length + 1) hi') (by unfold pot; omega)
        omega
    | pushFront a =>
      obtain ⟨ha, R', hR⟩ : Holds e R a (ρ a) := ho'
      rw [endsOf]
      generalize hB : 6 + t + (if lo = 0 then 17 + t * ws.length + 2 * ws.length else 0) = B
      have hBK : (if lo = 0 then t * ws.length + 2 * ws.length else 0) + (23 + t) ≥ B := by
        rw [← hB]; split <;> omega
      have hle : B ≤ K := by
        by_cases h : lo = 0
        · rw [if_pos h] at hBK
          have : ws.length ≤ pot lo ws.length hi := by unfold pot; omega
          have := key (n := ws.length) (p := pot lo ws.length hi) (p' := 0) (by omega)
          omega
        · rw [if_neg h] at hBK; omega
      payW B
      show Triple True _ (within B (pushFront T v a) >>= _) _
      have h1 := pushFront_time (e := e) (v := v) (b := b) (lo := lo) (hi := hi) (ws := ws) (value := a) (w := ρ a) ha (Or.inl hp) hT (Nat.le_of_eq hB)
      rw [hR]
      call h1
      intro _
      xintro b' lo' hi' ws' h
      obtain ⟨rfl, h2, h3⟩ := h.resolve_right (fun h => h.1 trivial)
      refine Triple.pre (P' := isDeq e v b' lo' hi' (ρ a :: ws) ∗ R) (by rw [hR]; cancel) ?_
      rw [← hR]
      refine ih' ?_
      rw [List.length_cons]
      by_cases h : lo = 0
      · rw [if_pos h] at hBK
        have := key (pot_grow_front h (h3 h).1 (h3 h).2)
        omega
      · rw [if_neg h] at hBK
        have := h2 (by omega)
        have := key0 (p := pot lo ws.length hi) (p' := pot lo' (ws.length + 1) hi') (by unfold pot; omega)
        omega
    | popBack =>
      rw [endsOf]
      rcases List.eq_nil_or_concat ws with rfl | ⟨ws, w, rfl⟩
      · payW 2
        show Triple True _ (within 2 (popBack T v) >>= _) _
        call (popBack_nil_time (e := e) (Nat.le_refl 2))
        intro _
        exact ih' (ws := []) (by omega)
      · rw [List.concat_eq_append] at *
        rw [List.dropLast_concat]
        payW (8 + t)
        show Triple True _ (within (8 + t) (popBack T v) >>= _) _
        call (popBack_time (e := e) hT (Nat.le_refl (8 + t)))
        intro _
        refine ih' ?_
        rw [List.length_append, List.length_singleton] at hK
        have := key0 (p := pot lo (ws.length + 1) hi) (p' := pot lo ws.length (hi + 1)) (by unfold pot; omega)
        omega
    | popFront =>
      rw [endsOf]
      cases ws with
      | nil =>
        payW 2
        show Triple True _ (within 2 (popFront T v) >>= _) _
        call (popFront_nil_time (e := e) (Nat.le_refl 2))
        intro _
        exact ih' (ws := []) (by omega)
      | cons w ws =>
        rw [List.tail_cons]
        payW (8 + t)
        show Triple True _ (within (8 + t) (popFront T v) >>= _) _
        call (popFront_time (e := e) hT (Nat.le_refl (8 + t)))
        intro _
        refine ih' ?_
        rw [List.length_cons] at hK
        have := key0 (p := pot lo (ws.length + 1) hi) (p' := pot (lo + 1) ws.length hi) (by unfold pot; omega)
        omega
    | _ => exact absurd ho' (by simp [AtEnds])

end CC.Deq
