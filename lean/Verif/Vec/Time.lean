import Verif.Vec.Spec5
import Verif.Core.Within
/-!
# Time of the vector operations

The specifications of Vec/Spec*.lean, proved again for `within`: each operation makes at most the stated number of memory accesses.  `Takes o t`: each of the
functions of the element type makes at most `t` accesses.
-/
namespace CC

/-- each function of the element type makes at most `t` memory accesses -/
structure Takes {V : Type} (o : Ops V) (t : Nat) : Prop where
  create : ∀ l, Cost (o.create l) t
  copy : ∀ d s, Cost (o.copy d s) t
  destroy : ∀ l, Cost (o.destroy l) t

variable {V W α β : Type} {nf : Prop}

theorem plain_takes (ty : Ty V) : Takes (plainOps ty) 3 where
  create l := by unfold plainOps; dsimp only; cost
  copy d s := by unfold plainOps; dsimp only; cost
  destroy l := by unfold plainOps; dsimp only; cost

theorem box_takes (ty : Ty V) : Takes (boxOps ty) 6 where
  create l := by unfold boxOps; dsimp only; cost
  copy d s := by unfold boxOps; dsimp only; cost
  destroy l := by unfold boxOps; dsimp only; cost

theorem loadN_clk : ∀ (n : Nat) (l : Loc) (s s' : Mem V) (xs : List (Val V)), loadN l n s = some (.ok (xs, s')) → s'.clk ≤ s.clk + n ∧ xs.length = n
  | 0, l, s, s', xs, h => by cases h; exact ⟨Nat.le_refl _, rfl⟩
  | n+1, l, s, s', xs, h => by
    unfold loadN at h
    obtain ⟨x, s1, h1, h⟩ := bind_inv h
    obtain ⟨ys, s2, h2, h⟩ := bind_inv h
    cases h
    have := loadN_clk n _ _ _ _ h2
    have := Cost.iff.1 (Cost.load l) _ _ _ h1
    exact ⟨by omega, by simp only [List.length_cons]; omega⟩

theorem storeN_cost (xs : List (Val V)) (l : Loc) : Cost (storeN l xs) xs.length := by
  induction xs generalizing l with
  | nil => exact Cost.pure _
  | cons x xs ih =>
    unfold storeN
    refine ((Cost.store l x).bind fun _ => ih _).mono ?_
    simp only [List.length_cons]; omega

theorem Cost.memmove (d s : Loc) (n : Nat) : Cost (memmove d s n : M V Unit) (2 * n) := by
  rw [Cost.iff]
  intro m a m' h
  unfold CC.memmove at h
  obtain ⟨xs, m1, h1, h2⟩ := bind_inv h
  have := loadN_clk n _ _ _ _ h1
  have := Cost.iff.1 (storeN_cost xs d) _ _ _ h2
  omega

theorem Cost.memcpy (d s : Loc) (n : Nat) : Cost (memcpy d s n : M V Unit) (2 * n) := by
  unfold CC.memcpy
  split
  · exact Cost.ub.mono (Nat.zero_le _)
  · exact Cost.memmove d s n

theorem Cost.psub (p q : Loc) : Cost (psub p q : M V Nat) 0 := by unfold CC.psub; cost
theorem Cost.pminus (p : Loc) (n : Nat) : Cost (pminus p n : M V Loc) 0 := by unfold CC.pminus; cost

macro_rules | `(tactic| cost_fn) => `(tactic| first | exact Cost.memmove _ _ _ | exact Cost.memcpy _ _ _ | exact Cost.psub _ _ | exact Cost.pminus _ _ | exact Takes.destroy ‹_› _ | exact Takes.copy ‹_› _ _ | exact Takes.create ‹_› _)

/-- pay for a statement (also the last one) and use its specification -/
macro "callQ " t:term : tactic => `(tactic| first | (pay; call $t) | (payT; call $t))

end CC

namespace CC.Vec
open CC CC.Tac
variable {V W β α : Type} {nf : Prop} {T : Nat → Ops V} {ty : Nat} {e : ElemSpec nf (T ty) W}
variable {v b n cap : Nat} {ws : List W} {R : HProp V}

theorem begin_cost (v : Addr) : Cost (begin_ v : M V Loc) 1 := by unfold begin_; cost
theorem end_cost (v : Addr) : Cost (end_ v : M V Loc) 1 := by unfold end_; cost
theorem eos_cost (v : Addr) : Cost (eos v : M V Loc) 1 := by unfold eos; cost
macro_rules | `(tactic| cost_fn) => `(tactic| first | exact begin_cost _ | exact end_cost _ | exact eos_cost _)
theorem vbegin_cost (v : Addr) : Cost (vbegin v : M V Loc) 1 := by unfold vbegin; cost
theorem vend_cost (v : Addr) : Cost (vend v : M V Loc) 1 := by unfold vend; cost
theorem size_cost (v : Addr) : Cost (size v : M V Nat) 2 := by unfold size; cost
theorem capacity_cost (v : Addr) : Cost (capacity v : M V Nat) 2 := by unfold capacity; cost
theorem empty_cost (v : Addr) : Cost (empty v : M V Bool) 2 := by unfold empty; cost
theorem available_cost (v : Addr) : Cost (available v : M V Nat) 2 := by unfold available; cost
theorem isValidPos_cost (v : Addr) (p : Loc) : Cost (isValidPos v p : M V Bool) 2 := by unfold isValidPos; cost
theorem freeStorage_cost (p : Loc) : Cost (freeStorage p : M V Unit) 2 := by unfold freeStorage; cost
theorem create_cost (ty : Nat) : Cost (create ty : M V Addr) 5 := by unfold create; cost
macro_rules | `(tactic| cost_fn) => `(tactic| first | exact vbegin_cost _ | exact vend_cost _ | exact size_cost _ | exact capacity_cost _ | exact empty_cost _ | exact available_cost _ | exact isValidPos_cost _ _ | exact freeStorage_cost _ | exact create_cost _)
theorem back_cost (v : Addr) : Cost (back v : M V Loc) 3 := by unfold back; cost
theorem put_cost {o : Ops V} {t : Nat} (hT : Takes o t) (p q : Loc) : Cost (put o p q) t := by
  unfold put
  split
  · exact hT.copy _ _
  · exact hT.create _
theorem fill_cost {o : Ops V} {t : Nat} (hT : Takes o t) (n : Nat) (p q : Loc) : Cost (fill o p n q) (t * n) := by
  induction n generalizing p with
  | zero => exact Cost.pure _
  | succ n ih =>
    unfold fill
    exact ((put_cost hT p q).bind fun _ => ih _).mono (by rw [Nat.mul_succ]; omega)
macro_rules | `(tactic| cost_fn) => `(tactic| first | exact back_cost _ | exact fill_cost ‹_› _ _ _)

theorem destroyLoop_time {o : Ops V} {e : ElemSpec nf o W} {b i j t K : Nat} {ws : List W} (hj : j = i + ws.length) (hT : Takes o t) (hK : t * ws.length ≤ K) :
    Triple nf (live e b i ws) (within K (destroyLoop o (b, i) (b, j))) (fun _ => raws b i ws.length) := by
  subst hj
  induction ws generalizing i K with
  | nil =>
    rw [destroyLoop, if_neg (by simp)]
    retP
    exact ent_refl _
  | cons w ws ih =>
    rw [List.length_cons, Nat.mul_succ] at hK
    rw [destroyLoop, if_pos (by simp)]
    rw [live_cons]
    callP (destroyCell_spec (e := e) (l := (b, i)) (w := w))
    intro _
    have := ih (i := i + 1) (K := K - t) (by omega)
    rw [show i + 1 + ws.length = i + (w :: ws).length by simp; omega] at this
    simp only [padd]
    call this
    intro _
    rw [List.length_cons, raws_succ]
    cancel

theorem realloc_time' {k : Nat} (hp : e.Plain ∨ ws = []) {t K : Nat} (hT : Takes (T ty) t) (hK : 16 + t * ws.length + 2 * ws.length ≤ K) :
    Triple nf (isVec e v b cap ws) (within K (reallocateAndMove T v k))
      (fun failed => if failed then ⌜¬ nf⌝ ∗ isVec e v b cap ws else ∃ₛ b', ⌜b' ≠ 0 ∧ b' ≠ b⌝ ∗ isVec e v b' (newCap cap k ws.length) ws) := by
  unfold isVec
  apply hdr_fact; intro hv
  xintro hc
  unfold reallocateAndMove
  pay; step
  · simpa using hv
  callQ size_spec
  intro r
  xsub
  callQ capacity_spec
  intro r
  xsub
  pay; apply mallocO_spec
  · intro h
    rw [if_pos rfl]
    retP
    simp only [if_true]
    cancel
  intro a ha
  rw [if_neg ha]
  apply Triple.fact (p := a ≠ b)
  · intro h hh
    by_cases hb : b = 0
    · subst hb; exact ha
    · unfold vhdr at hh
      rw [buf_ne hb] at hh
      have := loc_ne_of (l₁ := (a, 0)) (l₂ := (b, 0)) hh (by cancel)
      intro h; exact this (by rw [h])
  intro hab
  callQ ldStart
  intro r
  xsub
  callQ ldFinish
  intro r
  xsub
  pay; apply psub_spec (by omega)
  rw [show 1 + ws.length - 1 = ws.length by omega]
  have hcap : newCap cap k ws.length = ws.length + (newCap cap k ws.length - ws.length) := by
    unfold newCap; split <;> omega
  generalize hN : newCap cap k ws.length = N at *
  have hN' : (if cap * 2 < k + ws.length then k + ws.length else cap * 2) = N := hN
  rw [hN', hcap, raws_append]
  callQ (memcpy_plain (e := e) (b := b) (i := 1) (c := a) (j := 1) (n := ws.length) (ws := ws) rfl hp)
  intro _
  callQ ldTy
  intro r
  xsub
  callQ begin_spec
  intro r
  xsub
  callQ end_spec
  intro r
  xsub
  payW (t * ws.length)
  call (destroyLoop_time (e := e) (b := b) (i := 1) (ws := ws) rfl hT (Nat.le_refl _))
  intro _
  callQ ldStart
  intro r
  xsub
  unfold vhdr
  refine Triple.pre (P' := (buf b cap ∗ raws b 1 cap) ∗ live e a 1 ws ∗ raws a (1 + ws.length) (N - ws.length) ∗ blk a N ∗
      (blk v 4 ∗ pts (v, 1) (.ptr b 1) ∗ pts (v, 2) (.ptr b (1 + ws.length)) ∗ pts (v, 3) (.ptr b (1 + cap)) ∗ fld v 4 ty)) ?_ ?_
  · have : raws (V := V) b 1 cap = (raws b 1 ws.length ∗ raws b (1 + ws.length) (cap - ws.length)) := by
      rw [← raws_append]; congr 1; omega
    rw [this, ← hcap]
    cancel
  callQ (freeStorage_spec (b := b) (cap := cap))
  intro _
  stepsP
  retP
  simp only [Bool.false_eq_true, if_false]
  rw [← hcap]
  xexists a
  rw [buf_ne ha]
  simp only [padd]
  cancel
  · omega

theorem realloc_time {k t K : Nat} (hp : e.Plain ∨ ws = []) (hT : Takes (T ty) t) (hK : 16 + t * ws.length + 2 * ws.length ≤ K) :
    Triple nf (isVec e v b cap ws) (within K (reallocateAndMove T v k))
      (fun failed => if failed then ⌜¬ nf⌝ ∗ isVec e v b cap ws else ∃ₛ b', ⌜b' ≠ 0⌝ ∗ isVec e v b' (newCap cap k ws.length) ws) := by
  refine Triple.post (realloc_time' hp hT hK) ?_
  intro failed
  cases failed with
  | true => exact ent_refl _
  | false =>
    simp only [Bool.false_eq_true, if_false]
    xintro b' h
    xexists b'
    cancel
    exact h.1

theorem pushBack_room_time {value : Loc} {w : W} (hv0 : value.1 ≠ 0) (hroom : ws.length < cap)
    (hc : CanCopy e (live e b 1 ws ∗ R) value w) {t K : Nat} (hT : Takes (T ty) t) (hK : 6 + t ≤ K) :
    Triple nf (isVec e v b cap ws ∗ R) (within K (pushBack T v value)) (fun _ => isVec e v b cap (ws ++ [w]) ∗ R) := by
  unfold isVec
  rw [sep_assoc]
  apply hdr_fact; intro hv
  xintro hcap
  unfold pushBack
  rw [if_neg (by simp [hv, hv0])]
  callQ ldFinish
  intro r
  xsub
  callQ ldEos
  intro r
  xsub
  rw [if_neg (by simp; omega)]
  pay; step
  rw [if_neg (by simp)]
  callQ ldTy
  intro r
  xsub
  callQ ldFinish
  intro r
  xsub
  rw [raws_pos (by omega)]
  callQ (hc (b, 1 + ws.length))
  intro _
  callQ ldFinish
  intro r
  xsub
  callQ (stFinish (b := b) (m := (ws ++ [w]).length) (by simp [padd]; omega))
  intro _
  rw [live_snoc]
  have h1 : 1 + (ws ++ [w]).length = 1 + ws.length + 1 := by simp; omega
  have h2 : cap - (ws ++ [w]).length = cap - ws.length - 1 := by simp; omega
  rw [h1, h2]
  cancel
  simp; omega

theorem pushBack_time {value : Loc} {w : W} (hv0 : value.1 ≠ 0) (hp : e.Plain ∨ ws = [] ∨ ws.length < cap) {t K : Nat} (hT : Takes (T ty) t) (hK : 6 + t + (if ws.length = cap then 16 + t * ws.length + 2 * ws.length else 0) ≤ K) :
    Triple nf (isVec e v b cap ws ∗ cell e value w) (within K (pushBack T v value))
      (fun _ => ∃ₛ b' cap' ws', ⌜Res nf (ws.length = cap) b cap ws (if ws.length = cap then newCap cap 1 cap else cap) (ws ++ [w]) b' cap' ws'⌝ ∗
        isVec e v b' cap' ws' ∗ cell e value w) := by
  by_cases hfull : ws.length = cap
  · have hp' : e.Plain ∨ ws = [] := by
      rcases hp with h | h | h
      · exact Or.inl h
      · exact Or.inr h
      · omega
    refine Triple.fact (p := v ≠ 0) (by intro h hh; unfold isVec at hh; rw [sep_assoc] at hh; exact hdr_ne hh) ?_
    intro hv
    unfold pushBack
    rw [if_neg (by simp [hv, hv0])]
    have h2 : Triple nf (isVec e v b cap ws) (ldP (v, 2)) (fun r => ⌜r = (b, 1 + ws.length)⌝ ∗ isVec e v b cap ws) := by
      unfold isVec; xintro h; call ldFinish; intro r; xsub; cancel
    have h3 : Triple nf (isVec e v b cap ws) (ldP (v, 3)) (fun r => ⌜r = (b, 1 + cap)⌝ ∗ isVec e v b cap ws) := by
      unfold isVec; xintro h; call ldEos; intro r; xsub; cancel
    callQ h2
    intro r
    xsub
    callQ h3
    intro r
    xsub
    rw [if_pos (by simp [hfull])]
    rw [if_pos hfull] at hK
    payW (16 + t * ws.length + 2 * ws.length)
    call (realloc_time (k := 1) hp' hT (Nat.le_refl _))
    intro failed
    cases failed with
    | true =>
      simp only [if_true]
      xintro h
      retP
      xexists b, cap, ws
      cancel
      exact Or.inr ⟨h, hfull, rfl, rfl, rfl⟩
    | false =>
      simp only [Bool.false_eq_true, if_false]
      xintro b' hb'
      have hN : ws.length < newCap cap 1 ws.length := by unfold newCap; split <;> omega
      unfold isVec
      xintro hcap
      callQ ldTy
      intro r
      xsub
      callQ ldFinish
      intro r
      xsub
      rw [raws_pos (by omega)]
      callQ (copyCell_spec (e := e) (l := (b', 1 + ws.length)) (s := value) (w := w))
      intro _
      callQ ldFinish
      intro r
      xsub
      callQ (stFinish (b := b') (m := (ws ++ [w]).length) (by simp [padd]; omega))
      intro _
      xexists b', newCap cap 1 ws.length, ws ++ [w]
      rw [live_snoc]
      have h1 : 1 + (ws ++ [w]).length = 1 + ws.length + 1 := by simp; omega
      have h2 : newCap cap 1 ws.length - (ws ++ [w]).length = newCap cap 1 ws.length - ws.length - 1 := by simp; omega
      rw [h1, h2]
      cancel
      · simp; omega
      · refine Or.inl ⟨rfl, ?_, fun h => absurd hfull h⟩
        rw [if_pos hfull, hfull]
  · refine Triple.fact (p := ws.length ≤ cap) (by
      intro h hh; unfold isVec at hh
      rw [sep_assoc, sep_left_comm, sep_assoc, hpure_sep_apply] at hh; exact hh.1) ?_
    intro hcap
    refine Triple.post (pushBack_room_time (w := w) hv0 (by omega) CanCopy.cell.frame' hT (by omega)) ?_
    intro _
    xexists b, cap, ws ++ [w]
    cancel
    refine Or.inl ⟨rfl, ?_, fun _ => rfl⟩
    rw [if_neg hfull]

theorem popBack_time {t K : Nat} (hT : Takes (T ty) t) (hK : 8 + t ≤ K) :
    Triple nf (isVec e v b cap ws) (within K (popBack T v)) (fun _ => isVec e v b cap ws.dropLast) := by
  unfold isVec
  apply hdr_fact; intro hv
  xintro hcap
  unfold popBack
  callQ empty_spec
  intro r
  xsub
  rcases List.eq_nil_or_concat ws with rfl | ⟨ws, w, rfl⟩
  · simp only [List.length_nil, decide_true, if_true]
    retP
    simp only [List.dropLast_nil, List.length_nil]
    cancel
  · rw [if_neg (by simp)]
    simp only [List.concat_eq_append] at *
    callQ ldTy
    intro r
    xsub
    have hback : Triple nf (vhdr (V := V) v b (ws ++ [w]).length cap ty) (back v)
        (fun r => ⌜r = (b, 1 + ws.length)⌝ ∗ vhdr v b (ws ++ [w]).length cap ty) := by
      unfold back
      call empty_spec
      intro r
      xsub
      rw [if_neg (by simp)]
      call end_spec
      intro r
      xsub
      refine Triple.post (pminus_spec' (by simp)) ?_
      intro r
      xsub
      cancel
      simp; omega
    callQ hback
    intro r
    xsub
    rw [live_snoc]
    callQ (destroyCell_spec (e := e) (l := (b, 1 + ws.length)) (w := w))
    intro _
    callQ ldFinish
    intro r
    xsub
    pay; apply pminus_spec (by simp)
    callQ (stFinish (b := b) (m := ws.length) (by simp; omega))
    intro _
    rw [List.dropLast_concat]
    have h1 : cap - ws.length = cap - (ws ++ [w]).length + 1 := by simp at hcap ⊢; omega
    have h2 : 1 + (ws ++ [w]).length = 1 + ws.length + 1 := by simp; omega
    rw [h1, h2, raws_succ]
    cancel
    simp at hcap; omega

end CC.Vec
