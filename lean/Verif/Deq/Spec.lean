import Verif.Deq.Rep
/-!
# Specifications of the deque operations
-/
namespace CC.Deq
open CC CC.Tac
open CC.Vec (nullP freeStorage buf buf_zero buf_ne arg arg_null arg_cell psub_spec psub_spec' pminus_spec pminus_spec' freeStorage_spec
  CanCopy live_snoc raws_pos newCap)
variable {V W β α : Type} {nf : Prop} {T : Nat → Ops V} {ty : Nat} {e : ElemSpec nf (T ty) W}
variable {v b lo n hi : Nat} {ws : List W} {R : HProp V}

/-- reading the header of a deque -/
theorem lift {m : M V α} {x : α} (h : Triple nf (dhdr v b lo ws.length hi ty) m (fun r => ⌜r = x⌝ ∗ dhdr v b lo ws.length hi ty)) :
    Triple nf (isDeq e v b lo hi ws) m (fun r => ⌜r = x⌝ ∗ isDeq e v b lo hi ws) := by
  unfold isDeq
  call h
  intro r
  xsub
  cancel

theorem deq_ne {h : Heap V} (hh : (isDeq e v b lo hi ws ∗ R) h) : v ≠ 0 := by
  unfold isDeq at hh
  rw [sep_assoc] at hh
  exact hdr_ne hh

theorem deq_fact {m : M V α} {Q : α → HProp V} (h : v ≠ 0 → Triple nf (isDeq e v b lo hi ws ∗ R) m Q) :
    Triple nf (isDeq e v b lo hi ws ∗ R) m Q := Triple.fact (fun _ hh => deq_ne hh) h

theorem deq_fact' {m : M V α} {Q : α → HProp V} (h : v ≠ 0 → Triple nf (isDeq e v b lo hi ws) m Q) :
    Triple nf (isDeq e v b lo hi ws) m Q := by
  rw [← sep_emp (isDeq e v b lo hi ws)] at h ⊢
  exact deq_fact h

/-- the storage is moved to a new block, the elements to its middle -/
theorem realloc_spec {k : Nat} (hp : e.Plain ∨ ws = []) :
    Triple nf (isDeq e v b lo hi ws) (reallocateAndMove T v k)
      (fun failed => if failed then ⌜¬ nf⌝ ∗ isDeq e v b lo hi ws else
        ∃ₛ b', ⌜b' ≠ 0 ∧ b' ≠ b⌝ ∗ isDeq e v b' ((newCap (lo + ws.length + hi) k ws.length - ws.length) / 2)
          (newCap (lo + ws.length + hi) k ws.length - ws.length - (newCap (lo + ws.length + hi) k ws.length - ws.length) / 2) ws) := by
  unfold isDeq
  apply hdr_fact; intro hv
  unfold reallocateAndMove
  step
  · simpa using hv
  call size_spec
  intro r
  xsub
  call capacity_spec
  intro r
  xsub
  apply mallocO_spec
  · intro h
    rw [if_pos rfl]
    apply Triple.ret
    simp only [if_true]
    cancel
  intro a ha
  rw [if_neg ha]
  apply Triple.fact (p := a ≠ b)
  · intro h hh
    by_cases hb : b = 0
    · subst hb; exact ha
    · unfold dhdr at hh
      rw [buf_ne hb] at hh
      have := loc_ne_of (l₁ := (a, 0)) (l₂ := (b, 0)) hh (by cancel)
      intro h; exact this (by rw [h])
  intro hab
  call ldStart
  intro r
  xsub
  call ldFinish
  intro r
  xsub
  apply psub_spec (by omega)
  rw [show 1 + lo + ws.length - (1 + lo) = ws.length by omega]
  have hcap : ws.length ≤ newCap (lo + ws.length + hi) k ws.length := by
    unfold newCap; split <;> omega
  generalize hN : newCap (lo + ws.length + hi) k ws.length = N at *
  have hN' : (if (lo + ws.length + hi) * 2 < k + ws.length then k + ws.length else (lo + ws.length + hi) * 2) = N := hN
  rw [hN']
  simp only [padd]
  generalize hl : (N - ws.length) / 2 = lo'
  generalize hh : N - ws.length - lo' = hi'
  have hsum : N = lo' + (ws.length + hi') := by omega
  have hraws : raws (V := V) a 1 N = (raws a 1 lo' ∗ raws a (1 + lo') ws.length ∗ raws a (1 + lo' + ws.length) hi') := by
    rw [hsum, raws_append, raws_append]
  rw [hraws]
  call (memcpy_plain (e := e) (b := b) (i := 1 + lo) (c := a) (j := 1 + lo') (n := ws.length) (ws := ws) rfl hp)
  intro _
  call ldTy
  intro r
  xsub
  call dbegin_spec
  intro r
  xsub
  call dend_spec
  intro r
  xsub
  call (destroyLoop_spec (e := e) (b := b) (i := 1 + lo) (ws := ws) rfl)
  intro _
  call ldSos
  intro r
  xsub
  unfold dhdr
  have hb' : (raws (V := V) b 1 lo ∗ raws b (1 + lo) ws.length ∗ raws b (1 + lo + ws.length) hi) = raws b 1 (lo + ws.length + hi) := by
    rw [Nat.add_assoc lo, raws_append, raws_append]
  refine Triple.pre (P' := (buf b (lo + ws.length + hi) ∗ raws b 1 (lo + ws.length + hi)) ∗ raws a 1 lo' ∗ live e a (1 + lo') ws ∗ raws a (1 + lo' + ws.length) hi' ∗ blk a N ∗
      (blk v 5 ∗ pts (v, 1) (.ptr b 1) ∗ pts (v, 2) (.ptr b (1 + lo)) ∗ pts (v, 3) (.ptr b (1 + lo + ws.length)) ∗
        pts (v, 4) (.ptr b (1 + lo + ws.length + hi)) ∗ fld v 5 ty)) ?_ ?_
  · rw [← hb']
    cancel
  call (freeStorage_spec (b := b) (cap := lo + ws.length + hi))
  intro _
  steps
  apply Triple.ret
  simp only [Bool.false_eq_true, if_false]
  xexists a
  rw [buf_ne ha, show lo' + ws.length + hi' = N by omega, show 1 + lo' + ws.length + hi' = 1 + N by omega]
  cancel

/-- `__insert_aux`: the free space decides which part of the elements is shifted -/
theorem insertAux_full {X Y : List W} {n : Nat} {value : Loc} {w : W} (hroom : n ≤ lo + hi) :
    Triple nf (isDeq e v b lo hi (X ++ Y) ∗ arg e value w) (insertAux T v (b, 1 + lo + X.length) n value)
      (fun r => ∃ₛ lo' hi', ⌜lo' + n + hi' = lo + hi ∧ ((n ≤ hi → lo' = lo) ∧ lo' ≤ lo ∧ hi' ≤ hi ∧ (hi < n → n ≤ lo → hi' = hi)) ∧ r = (b, 1 + lo' + X.length)⌝ ∗
        isDeq e v b lo' hi' (X ++ List.replicate n w ++ Y) ∗ arg e value w) := by
  unfold isDeq
  rw [sep_assoc]
  apply hdr_fact; intro hv
  unfold insertAux
  step
  · simpa using hv
  call ldTy
  intro r
  xsub
  call availableEnd_spec
  intro r
  xsub
  have hlen : (X ++ List.replicate n w ++ Y).length = X.length + n + Y.length := by simp; omega
  have hlen2 : (X ++ Y).length = X.length + Y.length := by simp
  rw [live_append, hlen2]
  by_cases h1 : n ≤ hi
  · rw [if_pos h1]
    call ldFinish
    intro r
    xsub
    apply psub_spec (by omega)
    rw [show 1 + lo + (X.length + Y.length) - (1 + lo + X.length) = Y.length by omega]
    rw [show hi = n + (hi - n) by omega, raws_append, ← Nat.add_assoc (1 + lo)]
    simp only [padd]
    call (memmove_up (e := e) (b := b) (i := 1 + lo + X.length) (k := n) (ws := Y) rfl rfl)
    intro _
    call (fill_spec (e := e) (b := b) (i := 1 + lo + X.length) (n := n) (value := value) (w := w))
    intro _
    call ldFinish
    intro r
    xsub
    call (stFinish (b := b) (lo := lo) (n := X.length + Y.length) (hi := n + (hi - n)) (n' := X.length + n + Y.length) (hi' := hi - n) (by simp; omega) (by omega))
    intro _
    apply Triple.ret
    xexists lo, hi - n
    rw [hlen, live_append, live_append, List.length_append, List.length_replicate]
    have e1 : 1 + lo + X.length + Y.length + n = 1 + lo + (X.length + n + Y.length) := by omega
    have e2 : 1 + lo + (X.length + n) = 1 + lo + X.length + n := by omega
    rw [e1, e2]
    cancel
    exact ⟨by omega, ⟨fun _ => rfl, by omega, by omega, fun h => by omega⟩, rfl⟩
  · rw [if_neg h1]
    call availableStart_spec
    intro r
    xsub
    by_cases h2 : n ≤ lo
    · rw [if_pos h2]
      call ldStart
      intro r
      xsub
      apply psub_spec (by omega)
      rw [show 1 + lo + X.length - (1 + lo) = X.length by omega]
      apply pminus_spec (by omega)
      have hraw : raws (V := V) b 1 lo = (raws b 1 (lo - n) ∗ raws b (1 + lo - n) n) := by
        rw [show 1 + lo - n = 1 + (lo - n) by omega, ← raws_append]; congr 1; omega
      rw [hraw]
      call (memmove_down (e := e) (b := b) (i := 1 + lo - n) (j := 1 + lo) (k := n) (ws := X) rfl (by omega))
      intro _
      call ldStart
      intro r
      xsub
      apply pminus_spec (by omega)
      call (stStart (b := b) (lo := lo) (n := X.length + Y.length) (lo' := lo - n) (n' := X.length + n + Y.length) (by simp; omega) (by omega))
      intro _
      apply pminus_spec (by omega)
      have e0 : 1 + lo + X.length - n = 1 + lo - n + X.length := by omega
      rw [e0]
      call (fill_spec (e := e) (b := b) (i := 1 + lo - n + X.length) (n := n) (value := value) (w := w))
      intro _
      apply Triple.ret
      xexists lo - n, hi
      rw [hlen, live_append, live_append, List.length_append, List.length_replicate]
      have e1 : 1 + lo - n = 1 + (lo - n) := by omega
      have e2 : 1 + lo + X.length = 1 + (lo - n) + (X.length + n) := by omega
      have e3 : 1 + lo + (X.length + Y.length) = 1 + (lo - n) + (X.length + n + Y.length) := by omega
      rw [e1, e2, e3]
      cancel
      exact ⟨by omega, ⟨fun h => by omega, by omega, by omega, fun _ h => by omega⟩, rfl⟩
    · rw [if_neg h2]
      call ldStart
      intro r
      xsub
      apply psub_spec (by omega)
      rw [show 1 + lo + X.length - (1 + lo) = X.length by omega]
      call ldFinish
      intro r
      xsub
      apply psub_spec (by omega)
      rw [show 1 + lo + (X.length + Y.length) - (1 + lo + X.length) = Y.length by omega]
      call ldSos
      intro r
      xsub
      call ldStart
      intro r
      xsub
      call (memmove_down (e := e) (b := b) (i := 1) (j := 1 + lo) (k := lo) (ws := X) rfl (by omega))
      intro _
      call ldSos
      intro r
      xsub
      call (stStart (b := b) (lo := lo) (n := X.length + Y.length) (lo' := 0) (n' := lo + (X.length + Y.length)) (by simp) (by omega))
      intro _
      call ldStart
      intro r
      xsub
      rw [show hi = (n - lo) + (lo + hi - n) by omega, raws_append]
      have e1 : 1 + lo + (X.length + Y.length) = 1 + lo + X.length + Y.length := by omega
      rw [e1]
      simp only [padd, Nat.add_zero]
      call (memmove_up (e := e) (b := b) (i := 1 + lo + X.length) (j := 1 + X.length + n) (k := n - lo) (ws := Y) rfl (by omega))
      intro _
      call ldStart
      intro r
      xsub
      have hraw : raws (V := V) b (1 + X.length) n = (raws b (1 + X.length) lo ∗ raws b (1 + lo + X.length) (n - lo)) := by
        rw [show 1 + lo + X.length = 1 + X.length + lo by omega, ← raws_append]; congr 1; omega
      refine Triple.pre (P' := (arg e value w ∗ raws b (1 + X.length) n) ∗ live e b 1 X ∗ live e b (1 + X.length + n) Y ∗
        raws b (1 + lo + X.length + Y.length + (n - lo)) (lo + hi - n) ∗ dhdr v b 0 (lo + (X.length + Y.length)) (n - lo + (lo + hi - n)) ty) ?_ ?_
      · rw [hraw]; cancel
      call (fill_spec (e := e) (b := b) (i := 1 + X.length) (n := n) (value := value) (w := w))
      intro _
      call (stFinish (b := b) (lo := 0) (n := lo + (X.length + Y.length)) (hi := n - lo + (lo + hi - n)) (n' := X.length + n + Y.length) (hi' := lo + hi - n) (by simp; omega) (by omega))
      intro _
      apply Triple.ret
      xexists 0, lo + hi - n
      rw [hlen, live_append, live_append, List.length_append, List.length_replicate]
      have e2 : 1 + 0 + (X.length + n) = 1 + X.length + n := by omega
      have e3 : 1 + lo + X.length + Y.length + (n - lo) = 1 + 0 + (X.length + n + Y.length) := by omega
      rw [e2, e3, raws_zero]
      cancel
      exact ⟨by omega, ⟨fun h => by omega, by omega, by omega, fun _ h => by omega⟩, rfl⟩

theorem insertAux_spec {X Y : List W} {n : Nat} {value : Loc} {w : W} (hroom : n ≤ lo + hi) :
    Triple nf (isDeq e v b lo hi (X ++ Y) ∗ arg e value w) (insertAux T v (b, 1 + lo + X.length) n value)
      (fun r => ∃ₛ lo' hi', ⌜lo' + n + hi' = lo + hi ∧ (n ≤ hi → lo' = lo) ∧ r = (b, 1 + lo' + X.length)⌝ ∗
        isDeq e v b lo' hi' (X ++ List.replicate n w ++ Y) ∗ arg e value w) := by
  refine Triple.post (insertAux_full hroom) ?_
  intro r
  xintro lo' hi' h
  xexists lo', hi'
  cancel
  exact ⟨h.1, h.2.1.1, h.2.2⟩

/-- push_back without reallocation; the argument may be an element of the deque -/
theorem pushBack_room {value : Loc} {w : W} (hv0 : value.1 ≠ 0) (hroom : 0 < hi)
    (hc : CanCopy e (live e b (1 + lo) ws ∗ R) value w) :
    Triple nf (isDeq e v b lo hi ws ∗ R) (do
        let ty ← ldN (v, 5)
        let f ← ldP (v, 3)
        (T ty).copy f value
        let f ← ldP (v, 3)
        stP (v, 3) (padd f 1)) (fun _ => isDeq e v b lo (hi - 1) (ws ++ [w]) ∗ R) := by
  unfold isDeq
  call ldTy
  intro r
  xsub
  call ldFinish
  intro r
  xsub
  rw [raws_pos (i := 1 + lo + ws.length) (n := hi) (by omega)]
  call (hc (b, 1 + lo + ws.length))
  intro _
  call ldFinish
  intro r
  xsub
  call (stFinish (b := b) (lo := lo) (n := ws.length) (hi := hi) (n' := (ws ++ [w]).length) (hi' := hi - 1) (by simp [padd]; omega) (by simp; omega))
  intro _
  rw [live_snoc]
  have h1 : 1 + lo + (ws ++ [w]).length = 1 + lo + ws.length + 1 := by simp; omega
  rw [h1]
  cancel

theorem pushFront_room {value : Loc} {w : W} (hv0 : value.1 ≠ 0) (hroom : 0 < lo)
    (hc : CanCopy e (live e b (1 + lo) ws ∗ R) value w) :
    Triple nf (isDeq e v b lo hi ws ∗ R) (do
        let s ← ldP (v, 2)
        let s' ← pminus s 1
        stP (v, 2) s'
        let ty ← ldN (v, 5)
        let s ← ldP (v, 2)
        (T ty).copy s value) (fun _ => isDeq e v b (lo - 1) hi (w :: ws) ∗ R) := by
  unfold isDeq
  call ldStart
  intro r
  xsub
  apply pminus_spec (by omega)
  call (stStart (b := b) (lo := lo) (n := ws.length) (lo' := lo - 1) (n' := (w :: ws).length) (by simp; omega) (by simp; omega))
  intro _
  call ldTy
  intro r
  xsub
  call ldStart
  intro r
  xsub
  have hraw : raws (V := V) b 1 lo = (raws b 1 (lo - 1) ∗ ∃ₛ y, pts (b, 1 + (lo - 1)) y) := by
    rw [show (∃ₛ y, pts (V := V) (b, 1 + (lo - 1)) y) = raws b (1 + (lo - 1)) 1 by simp [raws], ← raws_append]; congr 1; omega
  rw [hraw]
  call (hc (b, 1 + (lo - 1)))
  intro _
  rw [live_cons]
  have h1 : 1 + (lo - 1) + 1 = 1 + lo := by omega
  have h2 : 1 + (lo - 1) + (w :: ws).length = 1 + lo + ws.length := by simp; omega
  rw [h1, h2]
  cancel

/-- the free slots in front after a reallocation for one more element: half of what is free (c_deque.c, `__reallocate_and_move`) -/
def Grown (lo n hi : Nat) : Nat := (newCap (lo + n + hi) 2 n - n) / 2

/-- Outcome of adding one element at an end with `room` free slots there. -/
theorem pushBack_full {value : Loc} {w : W} (hv0 : value.1 ≠ 0) (hp : e.Plain ∨ ws = [] ∨ 0 < hi) :
    Triple nf (isDeq e v b lo hi ws ∗ cell e value w) (pushBack T v value)
      (fun _ => ∃ₛ b' lo' hi' ws', ⌜(ws' = ws ++ [w] ∧ (0 < hi → b' = b ∧ lo' = lo ∧ hi' + 1 = hi) ∧ (hi = 0 → lo' = Grown lo ws.length hi ∧ lo' + ws.length + hi' + 1 = newCap (lo + ws.length + hi) 2 ws.length)) ∨
          (¬ nf ∧ hi = 0 ∧ ws' = ws ∧ b' = b ∧ lo' = lo ∧ hi' = hi)⌝ ∗ isDeq e v b' lo' hi' ws' ∗ cell e value w) := by
  apply deq_fact; intro hv
  unfold pushBack
  rw [if_neg (by simp [hv, hv0])]
  call (lift (e := e) (ldFinish (v := v)))
  intro r
  xsub
  call (lift (e := e) (ldEos (v := v)))
  intro r
  xsub
  by_cases hfull : hi = 0
  · rw [if_pos (by simp [hfull])]
    have hp' : e.Plain ∨ ws = [] := by
      rcases hp with h | h | h
      · exact Or.inl h
      · exact Or.inr h
      · omega
    call (realloc_spec (k := 1 * 2) hp')
    intro failed
    cases failed with
    | true =>
      simp only [if_true]
      xintro h
      apply Triple.ret
      xexists b, lo, hi, ws
      cancel
      exact Or.inr ⟨h, hfull, rfl, rfl, rfl, rfl⟩
    | false =>
      simp only [Bool.false_eq_true, if_false]
      xintro b' hb'
      generalize hN : newCap (lo + ws.length + hi) (1 * 2) ws.length = N
      have hN2 : ws.length + 2 ≤ N := by rw [← hN]; unfold newCap; split <;> omega
      refine Triple.post (pushBack_room (e := e) (v := v) (b := b') (lo := (N - ws.length) / 2) (hi := N - ws.length - (N - ws.length) / 2) (ws := ws) (R := cell e value w) (w := w) hv0 (by omega) CanCopy.cell.frame') ?_
      intro _
      xexists b', _, _, ws ++ [w]
      cancel
      refine Or.inl ⟨rfl, fun h => by omega, fun _ => ?_⟩
      unfold Grown
      rw [show (1 * 2 : Nat) = 2 from rfl] at hN
      rw [hN]
      omega
  · rw [if_neg (by simp; omega)]
    step
    rw [if_neg (by simp)]
    refine Triple.post (pushBack_room (e := e) (v := v) (b := b) (lo := lo) (hi := hi) (ws := ws) (R := cell e value w) (w := w) hv0 (by omega) CanCopy.cell.frame') ?_
    intro _
    xexists b, lo, hi - 1, ws ++ [w]
    cancel
    exact Or.inl ⟨rfl, fun h => ⟨rfl, rfl, by omega⟩, fun h => absurd h hfull⟩

theorem pushBack_spec {value : Loc} {w : W} (hv0 : value.1 ≠ 0) (hp : e.Plain ∨ ws = [] ∨ 0 < hi) :
    Triple nf (isDeq e v b lo hi ws ∗ cell e value w) (pushBack T v value)
      (fun _ => ∃ₛ b' lo' hi' ws', ⌜(ws' = ws ++ [w] ∧ (0 < hi → b' = b ∧ lo' = lo ∧ hi' + 1 = hi)) ∨
          (¬ nf ∧ hi = 0 ∧ ws' = ws ∧ b' = b ∧ lo' = lo ∧ hi' = hi)⌝ ∗ isDeq e v b' lo' hi' ws' ∗ cell e value w) := by
  refine Triple.post (pushBack_full hv0 hp) ?_
  intro _
  xintro b' lo' hi' ws' h
  xexists b', lo', hi', ws'
  cancel
  exact h.imp (fun h => ⟨h.1, h.2.1⟩) id

theorem pushFront_full {value : Loc} {w : W} (hv0 : value.1 ≠ 0) (hp : e.Plain ∨ ws = [] ∨ 0 < lo) :
    Triple nf (isDeq e v b lo hi ws ∗ cell e value w) (pushFront T v value)
      (fun _ => ∃ₛ b' lo' hi' ws', ⌜(ws' = w :: ws ∧ (0 < lo → b' = b ∧ lo' + 1 = lo ∧ hi' = hi) ∧ (lo = 0 → lo' + 1 = Grown lo ws.length hi ∧ lo' + 1 + ws.length + hi' = newCap (lo + ws.length + hi) 2 ws.length)) ∨
          (¬ nf ∧ lo = 0 ∧ ws' = ws ∧ b' = b ∧ lo' = lo ∧ hi' = hi)⌝ ∗ isDeq e v b' lo' hi' ws' ∗ cell e value w) := by
  apply deq_fact; intro hv
  unfold pushFront
  rw [if_neg (by simp [hv, hv0])]
  call (lift (e := e) (ldStart (v := v)))
  intro r
  xsub
  call (lift (e := e) (ldSos (v := v)))
  intro r
  xsub
  by_cases hfull : lo = 0
  · rw [if_pos (by simp [hfull])]
    have hp' : e.Plain ∨ ws = [] := by
      rcases hp with h | h | h
      · exact Or.inl h
      · exact Or.inr h
      · omega
    call (realloc_spec (k := 1 * 2) hp')
    intro failed
    cases failed with
    | true =>
      simp only [if_true]
      xintro h
      apply Triple.ret
      xexists b, lo, hi, ws
      cancel
      exact Or.inr ⟨h, hfull, rfl, rfl, rfl, rfl⟩
    | false =>
      simp only [Bool.false_eq_true, if_false]
      xintro b' hb'
      generalize hN : newCap (lo + ws.length + hi) (1 * 2) ws.length = N
      have hN2 : ws.length + 2 ≤ N := by rw [← hN]; unfold newCap; split <;> omega
      refine Triple.post (pushFront_room (e := e) (v := v) (b := b') (lo := (N - ws.length) / 2) (hi := N - ws.length - (N - ws.length) / 2) (ws := ws) (R := cell e value w) (w := w) hv0 (by omega) CanCopy.cell.frame') ?_
      intro _
      xexists b', _, _, w :: ws
      cancel
      refine Or.inl ⟨rfl, fun h => by omega, fun _ => ?_⟩
      unfold Grown
      rw [show (1 * 2 : Nat) = 2 from rfl] at hN
      rw [hN]
      omega
  · rw [if_neg (by simp; omega)]
    step
    rw [if_neg (by simp)]
    refine Triple.post (pushFront_room (e := e) (v := v) (b := b) (lo := lo) (hi := hi) (ws := ws) (R := cell e value w) (w := w) hv0 (by omega) CanCopy.cell.frame') ?_
    intro _
    xexists b, lo - 1, hi, w :: ws
    cancel
    exact Or.inl ⟨rfl, fun h => ⟨rfl, by omega, rfl⟩, fun h => absurd h hfull⟩

theorem pushFront_spec {value : Loc} {w : W} (hv0 : value.1 ≠ 0) (hp : e.Plain ∨ ws = [] ∨ 0 < lo) :
    Triple nf (isDeq e v b lo hi ws ∗ cell e value w) (pushFront T v value)
      (fun _ => ∃ₛ b' lo' hi' ws', ⌜(ws' = w :: ws ∧ (0 < lo → b' = b ∧ lo' + 1 = lo ∧ hi' = hi)) ∨
          (¬ nf ∧ lo = 0 ∧ ws' = ws ∧ b' = b ∧ lo' = lo ∧ hi' = hi)⌝ ∗ isDeq e v b' lo' hi' ws' ∗ cell e value w) := by
  refine Triple.post (pushFront_full hv0 hp) ?_
  intro _
  xintro b' lo' hi' ws' h
  xexists b', lo', hi', ws'
  cancel
  exact h.imp (fun h => ⟨h.1, h.2.1⟩) id

theorem popBack_nil : Triple nf (isDeq e v b lo hi []) (popBack T v) (fun _ => isDeq e v b lo hi []) := by
  unfold popBack
  call (lift (e := e) (empty_spec (v := v)))
  intro r
  xsub
  simp only [List.length_nil, decide_true, if_true]
  apply Triple.ret
  cancel

theorem popBack_spec {w : W} :
    Triple nf (isDeq e v b lo hi (ws ++ [w])) (popBack T v) (fun _ => isDeq e v b lo (hi + 1) ws) := by
  unfold isDeq popBack
  call empty_spec
  intro r
  xsub
  rw [if_neg (by simp)]
  call ldTy
  intro r
  xsub
  call back_spec
  intro r
  xsub
  rw [if_neg (by simp), live_snoc]
  have h0 : lo + (ws ++ [w]).length = 1 + lo + ws.length := by simp; omega
  rw [h0]
  call (destroyCell_spec (e := e) (l := (b, 1 + lo + ws.length)) (w := w))
  intro _
  call ldFinish
  intro r
  xsub
  apply pminus_spec (by simp; omega)
  call (stFinish (b := b) (lo := lo) (n := (ws ++ [w]).length) (hi := hi) (n' := ws.length) (hi' := hi + 1) (by simp <;> omega) (by simp <;> omega))
  intro _
  have h2 : 1 + lo + (ws ++ [w]).length = 1 + lo + ws.length + 1 := by simp; omega
  rw [h2, raws_succ]
  cancel

theorem popFront_nil : Triple nf (isDeq e v b lo hi []) (popFront T v) (fun _ => isDeq e v b lo hi []) := by
  unfold popFront
  call (lift (e := e) (empty_spec (v := v)))
  intro r
  xsub
  simp only [List.length_nil, decide_true, if_true]
  apply Triple.ret
  cancel

theorem popFront_spec {w : W} :
    Triple nf (isDeq e v b lo hi (w :: ws)) (popFront T v) (fun _ => isDeq e v b (lo + 1) hi ws) := by
  unfold isDeq popFront
  call empty_spec
  intro r
  xsub
  rw [if_neg (by simp)]
  call ldTy
  intro r
  xsub
  call front_spec
  intro r
  xsub
  rw [if_neg (by simp), live_cons]
  call (destroyCell_spec (e := e) (l := (b, 1 + lo)) (w := w))
  intro _
  call ldStart
  intro r
  xsub
  call (stStart (b := b) (lo := lo) (n := (w :: ws).length) (lo' := lo + 1) (n' := ws.length) (by simp [padd]; omega) (by simp; omega))
  intro _
  have h1 : 1 + lo + (w :: ws).length = 1 + (lo + 1) + ws.length := by simp; omega
  have h2 : 1 + (lo + 1) = 1 + lo + 1 := by omega
  have h3 : raws (V := V) b 1 (lo + 1) = (raws b 1 lo ∗ ∃ₛ y, pts (b, 1 + lo) y) := by
    rw [raws_append]; simp [raws]
  rw [h1, h2, h3]
  cancel

end CC.Deq
