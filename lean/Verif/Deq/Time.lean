import Verif.Deq.Spec3
import Verif.Vec.Time
/-!
# Time of the deque operations

The specifications of Deq/Spec*.lean, proved again for `within` (Core/Within.lean); `Takes` is defined in Vec/Time.lean.
-/
namespace CC.Deq
open CC CC.Tac
open CC.Vec (nullP freeStorage buf buf_zero buf_ne arg arg_null arg_cell psub_spec psub_spec' pminus_spec pminus_spec' freeStorage_spec
  CanCopy live_snoc raws_pos newCap overwrite_spec overwrite_raw)
variable {V W β α : Type} {nf : Prop} {T : Nat → Ops V} {ty : Nat} {e : ElemSpec nf (T ty) W}
variable {v b lo n hi : Nat} {ws : List W} {R : HProp V}

theorem begin_cost (v : Addr) : Cost (begin_ v : M V Loc) 1 := by unfold begin_; cost
theorem end_cost (v : Addr) : Cost (end_ v : M V Loc) 1 := by unfold end_; cost
theorem sos_cost (v : Addr) : Cost (sos v : M V Loc) 1 := by unfold sos; cost
theorem eos_cost (v : Addr) : Cost (eos v : M V Loc) 1 := by unfold eos; cost
macro_rules | `(tactic| cost_fn) => `(tactic| first | exact begin_cost _ | exact end_cost _ | exact eos_cost _ | exact sos_cost _)
theorem dbegin_cost (v : Addr) : Cost (dbegin v : M V Loc) 1 := by unfold dbegin; cost
theorem dend_cost (v : Addr) : Cost (dend v : M V Loc) 1 := by unfold dend; cost
theorem size_cost (v : Addr) : Cost (size v : M V Nat) 2 := by unfold size; cost
theorem capacity_cost (v : Addr) : Cost (capacity v : M V Nat) 2 := by unfold capacity; cost
theorem empty_cost (v : Addr) : Cost (empty v : M V Bool) 2 := by unfold empty; cost
theorem availableStart_cost (v : Addr) : Cost (availableStart v : M V Nat) 2 := by unfold availableStart; cost
theorem availableEnd_cost (v : Addr) : Cost (availableEnd v : M V Nat) 2 := by unfold availableEnd; cost
theorem isValidPos_cost (v : Addr) (p : Loc) : Cost (isValidPos v p : M V Bool) 2 := by unfold isValidPos; cost
theorem create_cost (ty : Nat) : Cost (create ty : M V Addr) 6 := by unfold create; cost
macro_rules | `(tactic| cost_fn) => `(tactic| first | exact dbegin_cost _ | exact dend_cost _ | exact size_cost _ | exact capacity_cost _ | exact empty_cost _ | exact availableStart_cost _ | exact availableEnd_cost _ | exact isValidPos_cost _ _ | exact Vec.freeStorage_cost _ | exact create_cost _)
theorem available_cost (v : Addr) : Cost (available v : M V Nat) 4 := by unfold available; cost
theorem front_cost (v : Addr) : Cost (front v : M V Loc) 3 := by unfold front; cost
theorem back_cost (v : Addr) : Cost (back v : M V Loc) 3 := by unfold back; cost
theorem put_cost {o : Ops V} {t : Nat} (hT : Takes o t) (p q : Loc) : Cost (put o p q) t := by
  unfold put
  split
  · exact hT.copy _ _
  · exact hT.create _
theorem fill_cost {o : Ops V} {t : Nat} (hT : Takes o t) (n : Nat) (p q : Loc) : Cost (fill o p n q) (t * n) := by
  induction n generalizing p with
  | zero => exact Cost.pure _
  | succ n ih =>
    unfold fill
    exact ((put_cost hT p q).bind fun _ => ih _).mono (by rw [Nat.mul_succ]; omega)
macro_rules | `(tactic| cost_fn) => `(tactic| first | exact available_cost _ | exact front_cost _ | exact back_cost _ | exact fill_cost ‹_› _ _ _)

theorem destroyLoop_time {o : Ops V} {e : ElemSpec nf o W} {b i j t K : Nat} {ws : List W} (hj : j = i + ws.length) (hT : Takes o t) (hK : t * ws.length ≤ K) :
    Triple nf (live e b i ws) (within K (destroyLoop o (b, i) (b, j))) (fun _ => raws b i ws.length) := by
  subst hj
  induction ws generalizing i K with
  | nil =>
    rw [destroyLoop, if_neg (by simp)]
    retP
    exact ent_refl _
  | cons w ws ih =>
    rw [List.length_cons, Nat.mul_succ] at hK
    rw [destroyLoop, if_pos (by simp)]
    rw [live_cons]
    callP (destroyCell_spec (e := e) (l := (b, i)) (w := w))
    intro _
    have := ih (i := i + 1) (K := K - t) (by omega)
    rw [show i + 1 + ws.length = i + (w :: ws).length by simp; omega] at this
    simp only [padd]
    call this
    intro _
    rw [List.length_cons, raws_succ]
    cancel

theorem realloc_time {k : Nat} (hp : e.Plain ∨ ws = []) {t K : Nat} (hT : Takes (T ty) t) (hK : 17 + t * ws.length + 2 * ws.length ≤ K) :
    Triple nf (isDeq e v b lo hi ws) (within K (reallocateAndMove T v k))
      (fun failed => if failed then ⌜¬ nf⌝ ∗ isDeq e v b lo hi ws else
        ∃ₛ b', ⌜b' ≠ 0 ∧ b' ≠ b⌝ ∗ isDeq e v b' ((newCap (lo + ws.length + hi) k ws.length - ws.length) / 2)
          (newCap (lo + ws.length + hi) k ws.length - ws.length - (newCap (lo + ws.length + hi) k ws.length - ws.length) / 2) ws) := by
  unfold isDeq
  apply hdr_fact; intro hv
  unfold reallocateAndMove
  pay; step
  · simpa using hv
  callQ size_spec
  intro r
  xsub
  callQ capacity_spec
  intro r
  xsub
  pay; apply mallocO_spec
  · intro h
    rw [if_pos rfl]
    retP
    simp only [if_true]
    cancel
  intro a ha
  rw [if_neg ha]
  apply Triple.fact (p := a ≠ b)
  · intro h hh
    by_cases hb : b = 0
    · subst hb; exact ha
    · unfold dhdr at hh
      rw [buf_ne hb] at hh
      have := loc_ne_of (l₁ := (a, 0)) (l₂ := (b, 0)) hh (by cancel)
      intro h; exact this (by rw [h])
  intro hab
  callQ ldStart
  intro r
  xsub
  callQ ldFinish
  intro r
  xsub
  pay; apply psub_spec (by omega)
  rw [show 1 + lo + ws.length - (1 + lo) = ws.length by omega]
  have hcap : ws.length ≤ newCap (lo + ws.length + hi) k ws.length := by
    unfold newCap; split <;> omega
  generalize hN : newCap (lo + ws.length + hi) k ws.length = N at *
  have hN' : (if (lo + ws.length + hi) * 2 < k + ws.length then k + ws.length else (lo + ws.length + hi) * 2) = N := hN
  rw [hN']
  simp only [padd]
  generalize hl : (N - ws.length) / 2 = lo'
  generalize hh : N - ws.length - lo' = hi'
  have hsum : N = lo' + (ws.length + hi') := by omega
  have hraws : raws (V := V) a 1 N = (raws a 1 lo' ∗ raws a (1 + lo') ws.length ∗ raws a (1 + lo' + ws.length) hi') := by
    rw [hsum, raws_append, raws_append]
  rw [hraws]
  callQ (memcpy_plain (e := e) (b := b) (i := 1 + lo) (c := a) (j := 1 + lo') (n := ws.length) (ws := ws) rfl hp)
  intro _
  callQ ldTy
  intro r
  xsub
  callQ dbegin_spec
  intro r
  xsub
  callQ dend_spec
  intro r
  xsub
  payW (t * ws.length)
  call (destroyLoop_time (e := e) (b := b) (i := 1 + lo) (ws := ws) rfl hT (Nat.le_refl _))
  intro _
  callQ ldSos
  intro r
  xsub
  unfold dhdr
  have hb' : (raws (V := V) b 1 lo ∗ raws b (1 + lo) ws.length ∗ raws b (1 + lo + ws.length) hi) = raws b 1 (lo + ws.length + hi) := by
    rw [Nat.add_assoc lo, raws_append, raws_append]
  refine Triple.pre (P' := (buf b (lo + ws.length + hi) ∗ raws b 1 (lo + ws.length + hi)) ∗ raws a 1 lo' ∗ live e a (1 + lo') ws ∗ raws a (1 + lo' + ws.length) hi' ∗ blk a N ∗
      (blk v 5 ∗ pts (v, 1) (.ptr b 1) ∗ pts (v, 2) (.ptr b (1 + lo)) ∗ pts (v, 3) (.ptr b (1 + lo + ws.length)) ∗
        pts (v, 4) (.ptr b (1 + lo + ws.length + hi)) ∗ fld v 5 ty)) ?_ ?_
  · rw [← hb']
    cancel
  callQ (freeStorage_spec (b := b) (cap := lo + ws.length + hi))
  intro _
  stepsP
  retP
  simp only [Bool.false_eq_true, if_false]
  xexists a
  rw [buf_ne ha, show lo' + ws.length + hi' = N by omega, show 1 + lo' + ws.length + hi' = 1 + N by omega]
  cancel

theorem insertAux_time {X Y : List W} {n : Nat} {value : Loc} {w : W} (hroom : n ≤ lo + hi) {t K : Nat} (hT : Takes (T ty) t) (hK : 16 + t * n + 2 * X.length + 2 * Y.length ≤ K) :
    Triple nf (isDeq e v b lo hi (X ++ Y) ∗ arg e value w) (within K (insertAux T v (b, 1 + lo + X.length) n value))
      (fun r => ∃ₛ lo' hi', ⌜lo' + n + hi' = lo + hi ∧ (n ≤ hi → lo' = lo) ∧ r = (b, 1 + lo' + X.length)⌝ ∗
        isDeq e v b lo' hi' (X ++ List.replicate n w ++ Y) ∗ arg e value w) := by
  unfold isDeq
  rw [sep_assoc]
  apply hdr_fact; intro hv
  unfold insertAux
  pay; step
  · simpa using hv
  callQ ldTy
  intro r
  xsub
  callQ availableEnd_spec
  intro r
  xsub
  have hlen : (X ++ List.replicate n w ++ Y).length = X.length + n + Y.length := by simp; omega
  have hlen2 : (X ++ Y).length = X.length + Y.length := by simp
  rw [live_append, hlen2]
  by_cases h1 : n ≤ hi
  · rw [if_pos h1]
    callQ ldFinish
    intro r
    xsub
    pay; apply psub_spec (by omega)
    rw [show 1 + lo + (X.length + Y.length) - (1 + lo + X.length) = Y.length by omega]
    rw [show hi = n + (hi - n) by omega, raws_append, ← Nat.add_assoc (1 + lo)]
    simp only [padd]
    callQ (memmove_up (e := e) (b := b) (i := 1 + lo + X.length) (k := n) (ws := Y) rfl rfl)
    intro _
    callQ (fill_spec (e := e) (b := b) (i := 1 + lo + X.length) (n := n) (value := value) (w := w))
    intro _
    callQ ldFinish
    intro r
    xsub
    callQ (stFinish (b := b) (lo := lo) (n := X.length + Y.length) (hi := n + (hi - n)) (n' := X.length + n + Y.length) (hi' := hi - n) (by simp; omega) (by omega))
    intro _
    retP
    xexists lo, hi - n
    rw [hlen, live_append, live_append, List.length_append, List.length_replicate]
    have e1 : 1 + lo + X.length + Y.length + n = 1 + lo + (X.length + n + Y.length) := by omega
    have e2 : 1 + lo + (X.length + n) = 1 + lo + X.length + n := by omega
    rw [e1, e2]
    cancel
    exact ⟨by omega, fun _ => rfl, rfl⟩
  · rw [if_neg h1]
    callQ availableStart_spec
    intro r
    xsub
    by_cases h2 : n ≤ lo
    · rw [if_pos h2]
      callQ ldStart
      intro r
      xsub
      pay; apply psub_spec (by omega)
      rw [show 1 + lo + X.length - (1 + lo) = X.length by omega]
      pay; apply pminus_spec (by omega)
      have hraw : raws (V := V) b 1 lo = (raws b 1 (lo - n) ∗ raws b (1 + lo - n) n) := by
        rw [show 1 + lo - n = 1 + (lo - n) by omega, ← raws_append]; congr 1; omega
      rw [hraw]
      callQ (memmove_down (e := e) (b := b) (i := 1 + lo - n) (j := 1 + lo) (k := n) (ws := X) rfl (by omega))
      intro _
      callQ ldStart
      intro r
      xsub
      pay; apply pminus_spec (by omega)
      callQ (stStart (b := b) (lo := lo) (n := X.length + Y.length) (lo' := lo - n) (n' := X.length + n + Y.length) (by simp; omega) (by omega))
      intro _
      pay; apply pminus_spec (by omega)
      have e0 : 1 + lo + X.length - n = 1 + lo - n + X.length := by omega
      rw [e0]
      callQ (fill_spec (e := e) (b := b) (i := 1 + lo - n + X.length) (n := n) (value := value) (w := w))
      intro _
      retP
      xexists lo - n, hi
      rw [hlen, live_append, live_append, List.length_append, List.length_replicate]
      have e1 : 1 + lo - n = 1 + (lo - n) := by omega
      have e2 : 1 + lo + X.length = 1 + (lo - n) + (X.length + n) := by omega
      have e3 : 1 + lo + (X.length + Y.length) = 1 + (lo - n) + (X.length + n + Y.length) := by omega
      rw [e1, e2, e3]
      cancel
      exact ⟨by omega, fun h => by omega, rfl⟩
    · rw [if_neg h2]
      callQ ldStart
      intro r
      xsub
      pay; apply psub_spec (by omega)
      rw [show 1 + lo + X.length - (1 + lo) = X.length by omega]
      callQ ldFinish
      intro r
      xsub
      pay; apply psub_spec (by omega)
      rw [show 1 + lo + (X.length + Y.length) - (1 + lo + X.length) = Y.length by omega]
      callQ ldSos
      intro r
      xsub
      callQ ldStart
      intro r
      xsub
      callQ (memmove_down (e := e) (b := b) (i := 1) (j := 1 + lo) (k := lo) (ws := X) rfl (by omega))
      intro _
      callQ ldSos
      intro r
      xsub
      callQ (stStart (b := b) (lo := lo) (n := X.length + Y.length) (lo' := 0) (n' := lo + (X.length + Y.length)) (by simp) (by omega))
      intro _
      callQ ldStart
      intro r
      xsub
      rw [show hi = (n - lo) + (lo + hi - n) by omega, raws_append]
      have e1 : 1 + lo + (X.length + Y.length) = 1 + lo + X.length + Y.length := by omega
      rw [e1]
      simp only [padd, Nat.add_zero]
      callQ (memmove_up (e := e) (b := b) (i := 1 + lo + X.length) (j := 1 + X.length + n) (k := n - lo) (ws := Y) rfl (by omega))
      intro _
      callQ ldStart
      intro r
      xsub
      have hraw : raws (V := V) b (1 + X.length) n = (raws b (1 + X.length) lo ∗ raws b (1 + lo + X.length) (n - lo)) := by
        rw [show 1 + lo + X.length = 1 + X.length + lo by omega, ← raws_append]; congr 1; omega
      refine Triple.pre (P' := (arg e value w ∗ raws b (1 + X.length) n) ∗ live e b 1 X ∗ live e b (1 + X.length + n) Y ∗
        raws b (1 + lo + X.length + Y.length + (n - lo)) (lo + hi - n) ∗ dhdr v b 0 (lo + (X.length + Y.length)) (n - lo + (lo + hi - n)) ty) ?_ ?_
      · rw [hraw]; cancel
      callQ (fill_spec (e := e) (b := b) (i := 1 + X.length) (n := n) (value := value) (w := w))
      intro _
      callQ (stFinish (b := b) (lo := 0) (n := lo + (X.length + Y.length)) (hi := n - lo + (lo + hi - n)) (n' := X.length + n + Y.length) (hi' := lo + hi - n) (by simp; omega) (by omega))
      intro _
      retP
      xexists 0, lo + hi - n
      rw [hlen, live_append, live_append, List.length_append, List.length_replicate]
      have e2 : 1 + 0 + (X.length + n) = 1 + X.length + n := by omega
      have e3 : 1 + lo + X.length + Y.length + (n - lo) = 1 + 0 + (X.length + n + Y.length) := by omega
      rw [e2, e3, raws_zero]
      cancel
      exact ⟨by omega, fun h => by omega, rfl⟩

theorem pushBack_room_time {value : Loc} {w : W} (hv0 : value.1 ≠ 0) (hroom : 0 < hi)
    (hc : CanCopy e (live e b (1 + lo) ws ∗ R) value w) {t K : Nat} (hT : Takes (T ty) t) (hK : 4 + t ≤ K) :
    Triple nf (isDeq e v b lo hi ws ∗ R) (within K (do
        let ty ← ldN (v, 5)
        let f ← ldP (v, 3)
        (T ty).copy f value
        let f ← ldP (v, 3)
        stP (v, 3) (padd f 1))) (fun _ => isDeq e v b lo (hi - 1) (ws ++ [w]) ∗ R) := by
  unfold isDeq
  callQ ldTy
  intro r
  xsub
  callQ ldFinish
  intro r
  xsub
  rw [raws_pos (i := 1 + lo + ws.length) (n := hi) (by omega)]
  callQ (hc (b, 1 + lo + ws.length))
  intro _
  callQ ldFinish
  intro r
  xsub
  callQ (stFinish (b := b) (lo := lo) (n := ws.length) (hi := hi) (n' := (ws ++ [w]).length) (hi' := hi - 1) (by simp [padd]; omega) (by simp; omega))
  intro _
  rw [live_snoc]
  have h1 : 1 + lo + (ws ++ [w]).length = 1 + lo + ws.length + 1 := by simp; omega
  rw [h1]
  cancel

theorem pushFront_room_time {value : Loc} {w : W} (hv0 : value.1 ≠ 0) (hroom : 0 < lo)
    (hc : CanCopy e (live e b (1 + lo) ws ∗ R) value w) {t K : Nat} (hT : Takes (T ty) t) (hK : 4 + t ≤ K) :
    Triple nf (isDeq e v b lo hi ws ∗ R) (within K (do
        let s ← ldP (v, 2)
        let s' ← pminus s 1
        stP (v, 2) s'
        let ty ← ldN (v, 5)
        let s ← ldP (v, 2)
        (T ty).copy s value)) (fun _ => isDeq e v b (lo - 1) hi (w :: ws) ∗ R) := by
  unfold isDeq
  callQ ldStart
  intro r
  xsub
  pay; apply pminus_spec (by omega)
  callQ (stStart (b := b) (lo := lo) (n := ws.length) (lo' := lo - 1) (n' := (w :: ws).length) (by simp; omega) (by simp; omega))
  intro _
  callQ ldTy
  intro r
  xsub
  callQ ldStart
  intro r
  xsub
  have hraw : raws (V := V) b 1 lo = (raws b 1 (lo - 1) ∗ ∃ₛ y, pts (b, 1 + (lo - 1)) y) := by
    rw [show (∃ₛ y, pts (V := V) (b, 1 + (lo - 1)) y) = raws b (1 + (lo - 1)) 1 by simp [raws], ← raws_append]; congr 1; omega
  rw [hraw]
  callQ (hc (b, 1 + (lo - 1)))
  intro _
  rw [live_cons]
  have h1 : 1 + (lo - 1) + 1 = 1 + lo := by omega
  have h2 : 1 + (lo - 1) + (w :: ws).length = 1 + lo + ws.length := by simp; omega
  rw [h1, h2]
  cancel

theorem pushBack_time {value : Loc} {w : W} (hv0 : value.1 ≠ 0) (hp : e.Plain ∨ ws = [] ∨ 0 < hi) {t K : Nat} (hT : Takes (T ty) t) (hK : 6 + t + (if hi = 0 then 17 + t * ws.length + 2 * ws.length else 0) ≤ K) :
    Triple nf (isDeq e v b lo hi ws ∗ cell e value w) (within K (pushBack T v value))
      (fun _ => ∃ₛ b' lo' hi' ws', ⌜(ws' = ws ++ [w] ∧ (0 < hi → b' = b ∧ lo' = lo ∧ hi' + 1 = hi) ∧ (hi = 0 → lo' = Grown lo ws.length hi ∧ lo' + ws.length + hi' + 1 = newCap (lo + ws.length + hi) 2 ws.length)) ∨
          (¬ nf ∧ hi = 0 ∧ ws' = ws ∧ b' = b ∧ lo' = lo ∧ hi' = hi)⌝ ∗ isDeq e v b' lo' hi' ws' ∗ cell e value w) := by
  apply deq_fact; intro hv
  unfold pushBack
  rw [if_neg (by simp [hv, hv0])]
  callQ (lift (e := e) (ldFinish (v := v)))
  intro r
  xsub
  callQ (lift (e := e) (ldEos (v := v)))
  intro r
  xsub
  by_cases hfull : hi = 0
  · rw [if_pos (by simp [hfull])]
    have hp' : e.Plain ∨ ws = [] := by
      rcases hp with h | h | h
      · exact Or.inl h
      · exact Or.inr h
      · omega
    rw [if_pos hfull] at hK
    payW (17 + t * ws.length + 2 * ws.length)
    call (realloc_time (k := 1 * 2) hp' hT (Nat.le_refl _))
    intro failed
    cases failed with
    | true =>
      simp only [if_true]
      xintro h
      retP
      xexists b, lo, hi, ws
      cancel
      exact Or.inr ⟨h, hfull, rfl, rfl, rfl, rfl⟩
    | false =>
      simp only [Bool.false_eq_true, if_false]
      xintro b' hb'
      generalize hN : newCap (lo + ws.length + hi) (1 * 2) ws.length = N
      have hN2 : ws.length + 2 ≤ N := by rw [← hN]; unfold newCap; split <;> omega
      refine Triple.post (pushBack_room_time (e := e) (v := v) (b := b') (lo := (N - ws.length) / 2) (hi := N - ws.length - (N - ws.length) / 2) (ws := ws) (R := cell e value w) (w := w) hv0 (by omega) CanCopy.cell.frame' hT (by omega)) ?_
      intro _
      xexists b', _, _, ws ++ [w]
      cancel
      refine Or.inl ⟨rfl, fun h => by omega, fun _ => ?_⟩
      unfold Grown
      rw [show (1 * 2 : Nat) = 2 from rfl] at hN
      rw [hN]
      omega
  · rw [if_neg (by simp; omega)]
    pay; step
    rw [if_neg (by simp)]
    refine Triple.post (pushBack_room_time (e := e) (v := v) (b := b) (lo := lo) (hi := hi) (ws := ws) (R := cell e value w) (w := w) hv0 (by omega) CanCopy.cell.frame' hT (by omega)) ?_
    intro _
    xexists b, lo, hi - 1, ws ++ [w]
    cancel
    exact Or.inl ⟨rfl, fun h => ⟨rfl, rfl, by omega⟩, fun h => absurd h hfull⟩

theorem pushFront_time {value : Loc} {w : W} (hv0 : value.1 ≠ 0) (hp : e.Plain ∨ ws = [] ∨ 0 < lo) {t K : Nat} (hT : Takes (T ty) t) (hK : 6 + t + (if lo = 0 then 17 + t * ws.length + 2 * ws.length else 0) ≤ K) :
    Triple nf (isDeq e v b lo hi ws ∗ cell e value w) (within K (pushFront T v value))
      (fun _ => ∃ₛ b' lo' hi' ws', ⌜(ws' = w :: ws ∧ (0 < lo → b' = b ∧ lo' + 1 = lo ∧ hi' = hi) ∧ (lo = 0 → lo' + 1 = Grown lo ws.length hi ∧ lo' + 1 + ws.length + hi' = newCap (lo + ws.length + hi) 2 ws.length)) ∨
          (¬ nf ∧ lo = 0 ∧ ws' = ws ∧ b' = b ∧ lo' = lo ∧ hi' = hi)⌝ ∗ isDeq e v b' lo' hi' ws' ∗ cell e value w) := by
  apply deq_fact; intro hv
  unfold pushFront
  rw [if_neg (by simp [hv, hv0])]
  callQ (lift (e := e) (ldStart (v := v)))
  intro r
  xsub
  callQ (lift (e := e) (ldSos (v := v)))
  intro r
  xsub
  by_cases hfull : lo = 0
  · rw [if_pos (by simp [hfull])]
    have hp' : e.Plain ∨ ws = [] := by
      rcases hp with h | h | h
      · exact Or.inl h
      · exact Or.inr h
      · omega
    rw [if_pos hfull] at hK
    payW (17 + t * ws.length + 2 * ws.length)
    call (realloc_time (k := 1 * 2) hp' hT (Nat.le_refl _))
    intro failed
    cases failed with
    | true =>
      simp only [if_true]
      xintro h
      retP
      xexists b, lo, hi, ws
      cancel
      exact Or.inr ⟨h, hfull, rfl, rfl, rfl, rfl⟩
    | false =>
      simp only [Bool.false_eq_true, if_false]
      xintro b' hb'
      generalize hN : newCap (lo + ws.length + hi) (1 * 2) ws.length = N
      have hN2 : ws.length + 2 ≤ N := by rw [← hN]; unfold newCap; split <;> omega
      refine Triple.post (pushFront_room_time (e := e) (v := v) (b := b') (lo := (N - ws.length) / 2) (hi := N - ws.length - (N - ws.length) / 2) (ws := ws) (R := cell e value w) (w := w) hv0 (by omega) CanCopy.cell.frame' hT (by omega)) ?_
      intro _
      xexists b', _, _, w :: ws
      cancel
      refine Or.inl ⟨rfl, fun h => by omega, fun _ => ?_⟩
      unfold Grown
      rw [show (1 * 2 : Nat) = 2 from rfl] at hN
      rw [hN]
      omega
  · rw [if_neg (by simp; omega)]
    pay; step
    rw [if_neg (by simp)]
    refine Triple.post (pushFront_room_time (e := e) (v := v) (b := b) (lo := lo) (hi := hi) (ws := ws) (R := cell e value w) (w := w) hv0 (by omega) CanCopy.cell.frame' hT (by omega)) ?_
    intro _
    xexists b, lo - 1, hi, w :: ws
    cancel
    exact Or.inl ⟨rfl, fun h => ⟨rfl, by omega, rfl⟩, fun h => absurd h hfull⟩

theorem popBack_nil_time {K : Nat} (hK : 2 ≤ K) : Triple nf (isDeq e v b lo hi []) (within K (popBack T v)) (fun _ => isDeq e v b lo hi []) := by
  unfold popBack
  callQ (lift (e := e) (empty_spec (v := v)))
  intro r
  xsub
  simp only [List.length_nil, decide_true, if_true]
  retP
  cancel

theorem popBack_time {w : W} {t K : Nat} (hT : Takes (T ty) t) (hK : 8 + t ≤ K) :
    Triple nf (isDeq e v b lo hi (ws ++ [w])) (within K (popBack T v)) (fun _ => isDeq e v b lo (hi + 1) ws) := by
  unfold isDeq popBack
  callQ empty_spec
  intro r
  xsub
  rw [if_neg (by simp)]
  callQ ldTy
  intro r
  xsub
  callQ back_spec
  intro r
  xsub
  rw [if_neg (by simp), live_snoc]
  have h0 : lo + (ws ++ [w]).length = 1 + lo + ws.length := by simp; omega
  rw [h0]
  callQ (destroyCell_spec (e := e) (l := (b, 1 + lo + ws.length)) (w := w))
  intro _
  callQ ldFinish
  intro r
  xsub
  pay; apply pminus_spec (by simp; omega)
  callQ (stFinish (b := b) (lo := lo) (n := (ws ++ [w]).length) (hi := hi) (n' := ws.length) (hi' := hi + 1) (by simp <;> omega) (by simp <;> omega))
  intro _
  have h2 : 1 + lo + (ws ++ [w]).length = 1 + lo + ws.length + 1 := by simp; omega
  rw [h2, raws_succ]
  cancel

theorem popFront_nil_time {K : Nat} (hK : 2 ≤ K) : Triple nf (isDeq e v b lo hi []) (within K (popFront T v)) (fun _ => isDeq e v b lo hi []) := by
  unfold popFront
  callQ (lift (e := e) (empty_spec (v := v)))
  intro r
  xsub
  simp only [List.length_nil, decide_true, if_true]
  retP
  cancel

theorem popFront_time {w : W} {t K : Nat} (hT : Takes (T ty) t) (hK : 8 + t ≤ K) :
    Triple nf (isDeq e v b lo hi (w :: ws)) (within K (popFront T v)) (fun _ => isDeq e v b (lo + 1) hi ws) := by
  unfold isDeq popFront
  callQ empty_spec
  intro r
  xsub
  rw [if_neg (by simp)]
  callQ ldTy
  intro r
  xsub
  callQ front_spec
  intro r
  xsub
  rw [if_neg (by simp), live_cons]
  callQ (destroyCell_spec (e := e) (l := (b, 1 + lo)) (w := w))
  intro _
  callQ ldStart
  intro r
  xsub
  callQ (stStart (b := b) (lo := lo) (n := (w :: ws).length) (lo' := lo + 1) (n' := ws.length) (by simp [padd]; omega) (by simp; omega))
  intro _
  have h1 : 1 + lo + (w :: ws).length = 1 + (lo + 1) + ws.length := by simp; omega
  have h2 : 1 + (lo + 1) = 1 + lo + 1 := by omega
  have h3 : raws (V := V) b 1 (lo + 1) = (raws b 1 lo ∗ ∃ₛ y, pts (b, 1 + lo) y) := by
    rw [raws_append]; simp [raws]
  rw [h1, h2, h3]
  cancel

end CC.Deq
