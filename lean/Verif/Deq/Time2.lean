import Verif.Deq.Time
/-!
# Time of the deque operations, continued
-/
namespace CC.Deq
open CC CC.Tac
open CC.Vec (nullP freeStorage buf buf_zero buf_ne arg arg_null arg_cell psub_spec psub_spec' pminus_spec pminus_spec' freeStorage_spec
  CanCopy live_snoc raws_pos newCap overwrite_spec overwrite_raw)
variable {V W β α : Type} {nf : Prop} {T : Nat → Ops V} {ty : Nat} {e : ElemSpec nf (T ty) W}
variable {v b lo n hi : Nat} {ws : List W} {R : HProp V}

theorem clear_nil_time {K : Nat} (hK : 2 ≤ K) : Triple nf (isDeq e v b lo hi []) (within K (clear T v)) (fun _ => isDeq e v b lo hi []) := by
  unfold clear
  callQ (lift (e := e) (empty_spec (v := v)))
  intro r
  xsub
  simp only [List.length_nil, decide_true, if_true]
  retP
  cancel

theorem clear_time (hw : ws ≠ []) {t K : Nat} (hT : Takes (T ty) t) (hK : 11 + t * ws.length ≤ K) : Triple nf (isDeq e v b lo hi ws) (within K (clear T v))
    (fun _ => isDeq e v b ((lo + ws.length + hi) / 2) (lo + ws.length + hi - (lo + ws.length + hi) / 2) []) := by
  unfold isDeq clear
  callQ empty_spec
  intro r
  xsub
  rw [if_neg (by simpa using hw)]
  callQ ldTy
  intro r
  xsub
  callQ dbegin_spec
  intro r
  xsub
  callQ dend_spec
  intro r
  xsub
  payW (t * ws.length)
  call (destroyLoop_time (e := e) (b := b) (i := 1 + lo) (ws := ws) rfl hT (Nat.le_refl _))
  intro _
  callQ eos_spec
  intro r
  xsub
  callQ sos_spec
  intro r
  xsub
  pay; apply psub_spec (by omega)
  rw [show 1 + lo + ws.length + hi - 1 = lo + ws.length + hi by omega]
  callQ sos_spec
  intro r
  xsub
  generalize hC : lo + ws.length + hi = C
  generalize hl : C / 2 = lo'
  have hle : lo' ≤ C := by omega
  unfold dhdr
  stepsP
  retP
  have e0 : 1 + lo + ws.length + hi = 1 + C := by omega
  have e1 : lo' + (C - lo') = C := by omega
  have e2 : 1 + lo' + (C - lo') = 1 + C := by omega
  have e3 : (raws (V := V) b 1 lo' ∗ raws b (1 + lo') (C - lo')) = raws b 1 C := by rw [← raws_append, e1]
  have e4 : raws (V := V) b 1 C = (raws b 1 lo ∗ raws b (1 + lo) ws.length ∗ raws b (1 + lo + ws.length) hi) := by
    rw [← hC, Nat.add_assoc lo, raws_append, raws_append]
  simp only [List.length_nil, Nat.add_zero, padd, live_nil, sep_emp, emp_sep, e0, e1, e2]
  rw [e3, e4, hC]
  cancel

theorem erase_time {X Y : List W} {w : W} {t K : Nat} (hT : Takes (T ty) t) (hK : 8 + t + 2 * Y.length ≤ K) :
    Triple nf (isDeq e v b lo hi (X ++ w :: Y)) (within K (erase T v (b, 1 + lo + X.length)))
      (fun r => ⌜r = (b, 1 + lo + X.length)⌝ ∗ isDeq e v b lo (hi + 1) (X ++ Y)) := by
  unfold isDeq
  apply hdr_fact; intro hv
  unfold erase
  rw [if_neg hv]
  callQ isValidPos_spec
  intro r
  xsub
  callQ ldFinish
  intro r
  xsub
  rw [if_neg (by simp)]
  callQ ldTy
  intro r
  xsub
  rw [live_append, live_cons]
  callQ (destroyCell_spec (e := e) (l := (b, 1 + lo + X.length)) (w := w))
  intro _
  callQ ldFinish
  intro r
  xsub
  simp only [padd]
  pay; apply psub_spec (by simp; omega)
  have hn : 1 + lo + (X ++ w :: Y).length - (1 + lo + X.length + 1) = Y.length := by simp; omega
  rw [hn]
  have hr : (∃ₛ y, pts (V := V) (b, 1 + lo + X.length) y) = raws b (1 + lo + X.length) 1 := by simp [raws]
  rw [hr]
  callQ (memmove_down (e := e) (b := b) (i := 1 + lo + X.length) (k := 1) (ws := Y) rfl rfl)
  intro _
  callQ ldFinish
  intro r
  xsub
  pay; apply pminus_spec (by simp; omega)
  callQ (stFinish (b := b) (lo := lo) (n := (X ++ w :: Y).length) (hi := hi) (n' := (X ++ Y).length) (hi' := hi + 1) (by simp; omega) (by simp; omega))
  intro _
  retP
  have h2 : 1 + lo + X.length + Y.length = 1 + lo + (X ++ Y).length := by simp; omega
  have h3 : 1 + lo + (X ++ w :: Y).length = 1 + lo + (X ++ Y).length + 1 := by simp; omega
  rw [Nat.add_comm hi 1, raws_append, live_append, h2, h3]
  cancel

theorem erase_invalid_time {p : Loc} (hp : ¬ (p.1 = b ∧ 1 + lo ≤ p.2 ∧ p.2 < 1 + lo + ws.length)) {t K : Nat} (hT : Takes (T ty) t) (hK : 4 ≤ K) :
    Triple nf (isDeq e v b lo hi ws) (within K (erase T v p)) (fun r => ⌜r = (b, 1 + lo + ws.length)⌝ ∗ isDeq e v b lo hi ws) := by
  apply deq_fact'; intro hv
  unfold erase
  rw [if_neg hv]
  callQ (lift (e := e) (isValidPos_spec (v := v)))
  intro r
  xsub
  callQ (lift (e := e) (ldFinish (v := v)))
  intro r
  xsub
  rw [if_pos ?_]
  · payT; exact lift dend_spec
  · by_cases h : p = (b, 1 + lo + ws.length)
    · exact Or.inr h
    · left
      simp only [Bool.not_eq_true', decide_eq_false_iff_not]
      rintro ⟨h1, h2, h3⟩
      refine hp ⟨h1, h2, ?_⟩
      rcases Nat.lt_or_eq_of_le h3 with h4 | h4
      · exact h4
      · exact absurd (Prod.ext h1 h4) h

theorem eraseRange_time {X Y Z : List W} {t K : Nat} (hT : Takes (T ty) t) (hK : 8 + t * Y.length + 2 * Z.length ≤ K) :
    Triple nf (isDeq e v b lo hi (X ++ Y ++ Z)) (within K (eraseRange T v (b, 1 + lo + X.length) (b, 1 + lo + X.length + Y.length)))
      (fun r => ⌜r = (b, 1 + lo + X.length)⌝ ∗ isDeq e v b lo (hi + Y.length) (X ++ Z)) := by
  unfold isDeq
  apply hdr_fact; intro hv
  unfold eraseRange
  rw [if_neg hv]
  callQ isValidPos_spec
  intro r
  xsub
  callQ isValidPos_spec
  intro r
  xsub
  rw [if_neg (by
    rintro (h | h | ⟨h1, h2⟩)
    · simp at h <;> omega
    · simp at h <;> omega
    · simp [pge] at h1
      exact h2 (by rw [show 1 + lo + X.length + Y.length = 1 + lo + X.length by omega]))]
  by_cases hY : Y = []
  · subst hY
    rw [if_pos (by simp)]
    retP
    simp only [List.length_nil, Nat.add_zero, List.append_nil]
    cancel
  · have hY' : Y.length ≠ 0 := by simpa using hY
    rw [if_neg (by simp; simpa using hY)]
    callQ ldTy
    intro r
    xsub
    rw [live_append, live_append]
    payW (t * Y.length)
    call (destroyLoop_time (e := e) (b := b) (i := 1 + lo + X.length) (ws := Y) rfl hT (Nat.le_refl _))
    intro _
    callQ ldFinish
    intro r
    xsub
    pay; apply psub_spec (by simp; omega)
    have hn : 1 + lo + (X ++ Y ++ Z).length - (1 + lo + X.length + Y.length) = Z.length := by simp; omega
    have hl : 1 + lo + (X ++ Y).length = 1 + lo + X.length + Y.length := by simp; omega
    rw [hn, hl]
    callQ (memmove_down (e := e) (b := b) (i := 1 + lo + X.length) (k := Y.length) (ws := Z) rfl rfl)
    intro _
    pay; apply psub_spec (by omega)
    callQ ldFinish
    intro r
    xsub
    pay; apply pminus_spec (by simp; omega)
    callQ (stFinish (b := b) (lo := lo) (n := (X ++ Y ++ Z).length) (hi := hi) (n' := (X ++ Z).length) (hi' := hi + Y.length) (by simp; omega) (by simp; omega))
    intro _
    retP
    have h2 : 1 + lo + X.length + Z.length = 1 + lo + (X ++ Z).length := by simp; omega
    have h3 : 1 + lo + (X ++ Y ++ Z).length = 1 + lo + (X ++ Z).length + Y.length := by simp; omega
    rw [Nat.add_comm hi, raws_append, live_append, h2, h3]
    cancel

theorem eraseRange_invalid_time {p q : Loc} (hp : ¬ (p.1 = b ∧ q.1 = b ∧ 1 + lo ≤ p.2 ∧ p.2 ≤ q.2 ∧ q.2 ≤ 1 + lo + ws.length)) {t K : Nat} (hT : Takes (T ty) t) (hK : 5 ≤ K) :
    Triple nf (isDeq e v b lo hi ws) (within K (eraseRange T v p q)) (fun r => ⌜r = (b, 1 + lo + ws.length)⌝ ∗ isDeq e v b lo hi ws) := by
  apply deq_fact'; intro hv
  unfold eraseRange
  rw [if_neg hv]
  callQ (lift (e := e) (isValidPos_spec (v := v)))
  intro r
  xsub
  callQ (lift (e := e) (isValidPos_spec (v := v)))
  intro r
  xsub
  rw [if_pos ?_]
  · payT; exact lift dend_spec
  · by_cases h1 : p.1 = b ∧ 1 + lo ≤ p.2 ∧ p.2 ≤ 1 + lo + ws.length
    · by_cases h2 : q.1 = b ∧ 1 + lo ≤ q.2 ∧ q.2 ≤ 1 + lo + ws.length
      · right; right
        have hlt : q.2 < p.2 := by
          rcases Nat.lt_or_ge q.2 p.2 with h | h
          · exact h
          · exact absurd ⟨h1.1, h2.1, h1.2.1, h, h2.2.2⟩ hp
        refine ⟨?_, ?_⟩
        · simp [pge, h1.1, h2.1]; omega
        · rintro rfl; omega
      · right; left; simp only [h2, decide_false, Bool.not_false]
    · left; simp only [h1, decide_false, Bool.not_false]

theorem insertRoom_time {count k : Nat} (hk : k ≤ ws.length) (hp : e.Plain ∨ ws = [] ∨ count ≤ lo + hi) {t K : Nat} (hT : Takes (T ty) t) (hK : 4 + (if lo + hi < count then 6 + (17 + t * ws.length + 2 * ws.length) else 0) ≤ K) :
    Triple nf (isDeq e v b lo hi ws) (within K (insertRoom T v (b, 1 + lo + k) count))
      (fun r => match r with
        | none => ⌜¬ nf ∧ lo + hi < count⌝ ∗ isDeq e v b lo hi ws
        | some p => ∃ₛ b' lo' hi', ⌜p = (b', 1 + lo' + k) ∧ count ≤ lo' + hi' ∧ (count ≤ lo + hi → b' = b ∧ lo' = lo ∧ hi' = hi)⌝ ∗
            isDeq e v b' lo' hi' ws) := by
  unfold insertRoom
  callQ (lift (e := e) (available_spec (v := v)))
  intro r
  xsub
  by_cases h : lo + hi < count
  · rw [if_pos h] at hK ⊢
    have hp' : e.Plain ∨ ws = [] := by
      rcases hp with h | h | h
      · exact Or.inl h
      · exact Or.inr h
      · omega
    callQ (lift (e := e) (ldStart (v := v)))
    intro r
    xsub
    pay; apply psub_spec (by omega)
    rw [show 1 + lo + k - (1 + lo) = k by omega]
    callQ (lift (e := e) (available_spec (v := v)))
    intro r
    xsub
    payW (17 + t * ws.length + 2 * ws.length)
    call (realloc_time (k := (count - (lo + hi)) * 2) hp' hT (Nat.le_refl _))
    intro failed
    cases failed with
    | true =>
      simp only [if_true]
      xintro h'
      retP
      dsimp only
      cancel
    | false =>
      simp only [Bool.false_eq_true, if_false]
      xintro b' hb'
      generalize hN : newCap (lo + ws.length + hi) ((count - (lo + hi)) * 2) ws.length = N
      have hN2 : count + ws.length ≤ N := by rw [← hN]; unfold newCap; split <;> omega
      callQ (lift (e := e) (ldStart (v := v)))
      intro r
      xsub
      retP
      dsimp only
      xexists b', (N - ws.length) / 2, N - ws.length - (N - ws.length) / 2
      cancel
      exact ⟨rfl, by omega, by omega⟩
  · rw [if_neg h]
    retP
    dsimp only
    xexists b, lo, hi
    cancel
    exact ⟨rfl, by omega, fun _ => ⟨rfl, rfl, rfl⟩⟩

theorem insertN_time {X Y : List W} {count : Nat} {value : Loc} {w : W} (hv0 : value.1 ≠ 0)
    (hp : e.Plain ∨ X ++ Y = [] ∨ count ≤ lo + hi) {t K : Nat} (hT : Takes (T ty) t) (hK : 22 + t * count + 2 * X.length + 2 * Y.length + (if lo + hi < count then 6 + (17 + t * (X ++ Y).length + 2 * (X ++ Y).length) else 0) ≤ K) :
    Triple nf (isDeq e v b lo hi (X ++ Y) ∗ cell e value w) (within K (insertN T v (b, 1 + lo + X.length) count value))
      (fun r => ∃ₛ b' lo' hi' ws', ⌜Res nf count b lo hi (X ++ Y) (X ++ List.replicate count w ++ Y) b' lo' hi' ws' ∧
          (ws' = X ++ List.replicate count w ++ Y ∧ r = (b', 1 + lo' + X.length) ∨ ¬ nf ∧ lo + hi < count ∧ ws' = X ++ Y ∧ r = (b', 1 + lo' + (X ++ Y).length))⌝ ∗
        isDeq e v b' lo' hi' ws' ∗ cell e value w) := by
  apply deq_fact; intro hv
  unfold insertN
  rw [if_neg (by simp [hv, hv0])]
  callQ (lift (e := e) (isValidPos_spec (v := v)))
  intro r
  xsub
  rw [if_neg (by simp <;> omega)]
  payW (4 + (if lo + hi < count then 6 + (17 + t * (X ++ Y).length + 2 * (X ++ Y).length) else 0))
  call (insertRoom_time (e := e) (v := v) (b := b) (lo := lo) (hi := hi) (ws := X ++ Y) (count := count) (k := X.length) (by simp) hp hT (Nat.le_refl _))
  generalize (if lo + hi < count then 6 + (17 + t * (X ++ Y).length + 2 * (X ++ Y).length) else 0) = G at hK ⊢
  intro r
  cases r with
  | none =>
    dsimp only
    xintro h
    callQ (lift (e := e) (dend_spec (v := v)))
    intro r
    xsub
    xexists b, lo, hi, X ++ Y
    cancel
    exact ⟨Or.inr ⟨h.1, h.2, rfl, rfl, rfl, rfl⟩, Or.inr ⟨h.1, h.2, rfl, rfl⟩⟩
  | some p =>
    dsimp only
    xintro b' lo' hi' h
    obtain ⟨rfl, h1, h2⟩ := h
    have := insertAux_time (e := e) (v := v) (b := b') (lo := lo') (hi := hi') (X := X) (Y := Y) (n := count) (value := value) (w := w) h1 hT (Nat.le_refl _)
    rw [arg_cell hv0] at this
    refine Triple.post (Triple.le (within_mono (by omega)) this) ?_
    intro r
    xintro lo'' hi'' h3
    obtain ⟨h3, _, rfl⟩ := h3
    xexists b', lo'', hi'', X ++ List.replicate count w ++ Y
    cancel
    refine ⟨Or.inl ⟨rfl, fun hc => ?_⟩, Or.inl ⟨rfl, rfl⟩⟩
    obtain ⟨rfl, rfl, rfl⟩ := h2 hc
    exact ⟨rfl, h3⟩

theorem insertN_invalid_time {count : Nat} {p value : Loc} (hv0 : value.1 ≠ 0) (hp : ¬ (p.1 = b ∧ 1 + lo ≤ p.2 ∧ p.2 ≤ 1 + lo + ws.length)) {t K : Nat} (hT : Takes (T ty) t) (hK : 3 ≤ K) :
    Triple nf (isDeq e v b lo hi ws) (within K (insertN T v p count value)) (fun r => ⌜r = (b, 1 + lo + ws.length)⌝ ∗ isDeq e v b lo hi ws) := by
  apply deq_fact'; intro hv
  unfold insertN
  rw [if_neg (by simp [hv, hv0])]
  callQ (lift (e := e) (isValidPos_spec (v := v)))
  intro r
  xsub
  rw [if_pos (by simp only [hp, decide_false, Bool.not_false])]
  payT; exact lift dend_spec

theorem resize_grow_time {count : Nat} {value : Loc} {w : W} (hlt : ws.length < count) (hp : e.Plain ∨ ws = [] ∨ count - ws.length ≤ lo + hi) {t K : Nat} (hT : Takes (T ty) t) (hK : 26 + t * (count - ws.length) + 2 * ws.length + (if lo + hi < count - ws.length then 17 + t * ws.length + 2 * ws.length else 0) ≤ K) :
    Triple nf (isDeq e v b lo hi ws ∗ arg e value w) (within K (resizeWithValue T v count value))
      (fun _ => ∃ₛ b' lo' hi' ws', ⌜Res nf (count - ws.length) b lo hi ws (ws ++ List.replicate (count - ws.length) w) b' lo' hi' ws' ∧
          (lo + hi < count - ws.length → ws' ≠ ws → lo' + hi' + count = newCap (lo + ws.length + hi) ((count - ws.length) * 2) ws.length)⌝ ∗
        isDeq e v b' lo' hi' ws' ∗ arg e value w) := by
  apply deq_fact; intro hv
  unfold resizeWithValue
  rw [if_neg hv]
  callQ (lift (e := e) (size_spec (v := v)))
  intro r
  xsub
  rw [if_pos hlt]
  callQ (lift (e := e) (size_spec (v := v)))
  intro r
  xsub
  callQ (lift (e := e) (available_spec (v := v)))
  intro r
  xsub
  generalize hk : count - ws.length = k at *
  have htail : ∀ b' lo' hi', k ≤ lo' + hi' → Triple nf (isDeq e v b' lo' hi' ws ∗ arg e value w) (within (17 + t * k + 2 * ws.length) (do
      let e ← dend v
      let _ ← insertAux T v e k value
      pure ()))
      (fun _ => ∃ₛ lo'' hi'', ⌜lo'' + k + hi'' = lo' + hi'⌝ ∗ isDeq e v b' lo'' hi'' (ws ++ List.replicate k w) ∗ arg e value w) := by
    intro b' lo' hi' h
    callQ (lift (e := e) (dend_spec (v := v)))
    intro r
    xsub
    have := insertAux_time (e := e) (v := v) (b := b') (lo := lo') (hi := hi') (X := ws) (Y := []) (n := k) (value := value) (w := w) h hT (Nat.le_refl _)
    simp only [List.append_nil] at this
    payW (16 + t * k + 2 * ws.length + 2 * ([] : List W).length)
    call this
    intro r
    xintro lo'' hi'' h'
    retP
    xexists lo'', hi''
    cancel
    exact h'.1
  by_cases hfull : lo + hi < k
  · rw [if_pos hfull]
    have hp' : e.Plain ∨ ws = [] := by
      rcases hp with h | h | h
      · exact Or.inl h
      · exact Or.inr h
      · omega
    rw [if_pos hfull] at hK
    payW (17 + t * ws.length + 2 * ws.length)
    call (realloc_time (k := k * 2) hp' hT (Nat.le_refl _))
    intro failed
    cases failed with
    | true =>
      simp only [if_true]
      xintro h
      retP
      xexists b, lo, hi, ws
      cancel
      exact ⟨Or.inr ⟨h, hfull, rfl, rfl, rfl, rfl⟩, fun _ h => absurd rfl h⟩
    | false =>
      simp only [Bool.false_eq_true, if_false]
      xintro b' hb'
      generalize hN : newCap (lo + ws.length + hi) (k * 2) ws.length = N
      have hN2 : k + ws.length ≤ N := by rw [← hN]; unfold newCap; split <;> omega
      refine Triple.post (Triple.le (within_mono (by omega)) (htail b' ((N - ws.length) / 2) (N - ws.length - (N - ws.length) / 2) (by omega))) ?_
      intro _
      xintro lo'' hi'' h
      xexists b', lo'', hi'', ws ++ List.replicate k w
      cancel
      exact ⟨Or.inl ⟨rfl, fun h => by omega⟩, fun _ _ => by omega⟩
  · rw [if_neg hfull]
    pay; step
    rw [if_neg (by simp)]
    refine Triple.post (Triple.le (within_mono (by omega)) (htail b lo hi (by omega))) ?_
    intro _
    xintro lo'' hi'' h
    xexists b, lo'', hi'', ws ++ List.replicate k w
    cancel
    exact ⟨Or.inl ⟨rfl, fun _ => ⟨rfl, h⟩⟩, fun h => absurd h hfull⟩

theorem resize_shrink_time {X Y : List W} {value : Loc} {t K : Nat} (hT : Takes (T ty) t) (hK : 6 + t * Y.length ≤ K) :
    Triple nf (isDeq e v b lo hi (X ++ Y)) (within K (resizeWithValue T v X.length value)) (fun _ => isDeq e v b lo (hi + Y.length) X) := by
  unfold isDeq
  apply hdr_fact; intro hv
  unfold resizeWithValue
  rw [if_neg hv]
  callQ size_spec
  intro r
  xsub
  rw [if_neg (by simp)]
  callQ ldStart
  intro r
  xsub
  callQ ldTy
  intro r
  xsub
  callQ dend_spec
  intro r
  xsub
  rw [live_append]
  simp only [padd]
  payW (t * Y.length)
  call (destroyLoop_time (e := e) (b := b) (i := 1 + lo + X.length) (j := 1 + lo + (X ++ Y).length) (ws := Y) (by simp; omega) hT (Nat.le_refl _))
  intro _
  callQ (stFinish (b := b) (lo := lo) (n := (X ++ Y).length) (hi := hi) (n' := X.length) (hi' := hi + Y.length) rfl (by simp; omega))
  intro _
  have h3 : 1 + lo + (X ++ Y).length = 1 + lo + X.length + Y.length := by simp; omega
  rw [Nat.add_comm hi, raws_append, h3]
  cancel

theorem shrinkToFit_time (hp : e.Plain ∨ ws = [] ∨ (lo = 0 ∧ hi = 0)) {t K : Nat} (hT : Takes (T ty) t) (hK : 20 + t * ws.length + 2 * ws.length ≤ K) :
    Triple nf (isDeq e v b lo hi ws) (within K (shrinkToFit T v))
      (fun _ => ∃ₛ b' lo' hi', ⌜lo' = 0 ∧ hi' = 0 ∨ (¬ nf ∧ b' = b ∧ lo' = lo ∧ hi' = hi)⌝ ∗ isDeq e v b' lo' hi' ws) := by
  unfold isDeq
  apply hdr_fact; intro hv
  unfold shrinkToFit
  rw [if_neg hv]
  callQ eos_spec
  intro r
  xsub
  callQ end_spec
  intro r
  xsub
  callQ sos_spec
  intro r
  xsub
  callQ begin_spec
  intro r
  xsub
  by_cases hfit : lo = 0 ∧ hi = 0
  · rw [if_pos (by simp [hfit])]
    retP
    xexists b, lo, hi
    cancel
    exact Or.inl hfit
  · rw [if_neg (by simp; omega)]
    have hp' : e.Plain ∨ ws = [] := by
      rcases hp with h | h | h
      · exact Or.inl h
      · exact Or.inr h
      · omega
    callQ ldFinish
    intro r
    xsub
    callQ ldStart
    intro r
    xsub
    pay; apply psub_spec (by omega)
    rw [show 1 + lo + ws.length - (1 + lo) = ws.length by omega]
    by_cases hw : ws = []
    · subst hw
      rw [List.length_nil, if_pos rfl, ← List.length_nil (α := W)]
      callQ ldSos
      intro r
      xsub
      unfold dhdr
      have hf := freeAll (V := V) (nf := nf) (b := b) (lo := lo) (n := 0) (hi := hi)
      rw [raws_zero] at hf
      simp only [List.length_nil, live_nil]
      callQ hf
      intro _
      stepsP
      retP
      xexists 0, 0, 0
      rw [buf_zero]
      simp only [raws_zero, Nat.add_zero]
      cancel
      exact Or.inl ⟨trivial, trivial⟩
    · rw [if_neg (by simpa using hw)]
      pay; apply mallocO_spec
      · intro h
        rw [if_pos rfl]
        retP
        xexists b, lo, hi
        cancel
        exact Or.inr ⟨h, rfl, rfl, rfl⟩
      intro a ha
      rw [if_neg ha]
      callQ (memcpy_plain (e := e) (b := b) (i := 1 + lo) (c := a) (j := 1) (n := ws.length) (ws := ws) rfl hp')
      intro _
      callQ ldTy
      intro r
      xsub
      callQ dbegin_spec
      intro r
      xsub
      callQ dend_spec
      intro r
      xsub
      payW (t * ws.length)
      call (destroyLoop_time (e := e) (b := b) (i := 1 + lo) (ws := ws) rfl hT (Nat.le_refl _))
      intro _
      callQ ldSos
      intro r
      xsub
      unfold dhdr
      callQ (freeAll (V := V) (nf := nf) (b := b) (lo := lo) (n := ws.length) (hi := hi))
      intro _
      stepsP
      retP
      xexists a, 0, 0
      rw [buf_ne ha]
      simp only [raws_zero, Nat.add_zero, Nat.zero_add, padd]
      cancel
      exact Or.inl ⟨trivial, trivial⟩

theorem clear_any_time {t K : Nat} (hT : Takes (T ty) t) (hK : 11 + t * ws.length ≤ K) :
    Triple nf (isDeq e v b lo hi ws) (within K (clear T v)) (fun _ => isDeq e v b (clearLo lo hi ws) (clearHi lo hi ws) []) := by
  unfold clearLo clearHi
  by_cases h : ws = []
  · subst h
    simp only [if_true]
    exact clear_nil_time (by omega)
  · rw [if_neg h, if_neg h]
    exact clear_time h hT hK

theorem destroy_time {t K : Nat} (hT : Takes (T ty) t) (hK : 19 + t * ws.length ≤ K) : Triple nf (isDeq e v b lo hi ws) (within K (destroy T v)) (fun _ => emp) := by
  apply deq_fact'; intro hv
  unfold destroy
  rw [if_neg hv]
  payW (11 + t * ws.length)
  refine Triple.bind (Triple.post (Q := fun _ => ∃ₛ lo' hi', isDeq e v b lo' hi' []) (clear_any_time hT (Nat.le_refl _)) ?_) ?_
  · intro _
    xexists clearLo lo hi ws, clearHi lo hi ws
    rw [sep_emp]
    exact ent_refl _
  intro _
  xintro lo' hi'
  unfold isDeq
  simp only [List.length_nil, live_nil]
  callQ ldSos
  intro r
  xsub
  unfold dhdr
  have hf := freeAll (V := V) (nf := nf) (b := b) (lo := lo') (n := 0) (hi := hi')
  rw [raws_zero] at hf
  callQ hf
  intro _
  stepsP
  callQ free5
  intro _
  cancel

theorem reserve_enough_time {k : Nat} (h : k ≤ lo + ws.length + hi) {K : Nat} (hK : 2 ≤ K) :
    Triple nf (isDeq e v b lo hi ws) (within K (reserve T v k)) (fun _ => isDeq e v b lo hi ws) := by
  apply deq_fact'; intro hv
  unfold reserve
  pay; step
  · simpa using hv
  callQ (lift (e := e) (capacity_spec (v := v)))
  intro r
  xsub
  rw [if_neg (by omega)]
  retP
  exact ent_refl _

theorem reserve_grow_time {k : Nat} (h : lo + hi < k) {t K : Nat} (hT : Takes (T ty) t) (hK : 45 + t * k ≤ K) :
    Triple nf (isDeq e v b lo hi []) (within K (reserve T v k))
      (fun _ => ∃ₛ b' lo' hi' ws', ⌜ws' = List.replicate k e.dflt ∨ (¬ nf ∧ ws' = [] ∧ b' = b ∧ lo' = lo ∧ hi' = hi)⌝ ∗ isDeq e v b' lo' hi' ws') := by
  apply deq_fact'; intro hv
  unfold reserve
  pay; step
  · simpa using hv
  callQ (lift (e := e) (capacity_spec (v := v)))
  intro r
  xsub
  rw [if_pos (by simpa using h)]
  unfold resize
  have h1 := resize_grow_time (e := e) (v := v) (b := b) (lo := lo) (hi := hi) (ws := []) (count := k) (value := (0, 0)) (w := e.dflt)
    (K := 43 + t * k) (by simp; omega) (Or.inr (Or.inl rfl)) hT (by
      simp only [List.length_nil, Nat.sub_zero, Nat.mul_zero, Nat.add_zero]
      split <;> omega)
  rw [arg_null rfl] at h1
  refine Triple.le (within_mono (k := 43 + t * k) (by omega)) ?_
  call h1
  · rfl
  intro _
  xintro b' lo' hi' ws' h' _
  xexists b', lo', hi', ws'
  cancel
  rcases h'.1 with ⟨rfl, _⟩ | ⟨h1, _, h2, h3, h4, h5⟩
  · left; simp
  · exact Or.inr ⟨h1, h2, h3, h4, h5⟩

theorem copy_time {T : Nat → Ops V} {e : ElemSpec True (T ty) W} (hp : e.Plain) (hty : ty ≠ 0) {t K : Nat} (hT : Takes (T ty) t) (hK : 58 + t * (lo + ws.length + hi) + 2 * ws.length ≤ K) :
    Triple True (isDeq e v b lo hi ws) (within K (copy T v))
      (fun r => isDeq e v b lo hi ws ∗ ∃ₛ b' lo' hi', isDeq e r b' lo' hi' (ws ++ List.replicate (lo + hi) e.dflt)) := by
  apply deq_fact'; intro hv
  unfold copy
  rw [if_neg hv]
  callQ (lift (e := e) (ldTy (v := v)))
  intro r
  xsub
  callQ (create_spec (e := e) hty)
  intro r
  xintro hr
  by_cases hr0 : r = 0
  · exact absurd trivial (hr hr0)
  rw [if_neg hr0, if_neg hr0]
  callQ (lift (e := e) (capacity_spec (v := v)))
  intro c
  xsub
  have hres : Triple True (isDeq e r 0 0 0 []) (within (45 + t * (lo + ws.length + hi)) (reserve T r (lo + ws.length + hi)))
      (fun _ => ∃ₛ b' lo' hi', isDeq e r b' lo' hi' (List.replicate (lo + ws.length + hi) e.dflt)) := by
    by_cases hc : lo + ws.length + hi = 0
    · refine Triple.post (reserve_enough_time (by simp only [List.length_nil]; omega) (by omega)) ?_
      intro _
      xexists 0, 0, 0
      rw [hc, sep_emp]
      exact ent_refl _
    · refine Triple.post (reserve_grow_time (by omega) hT (Nat.le_refl _)) ?_
      intro _
      xintro b' lo' hi' ws' h
      rcases h with rfl | ⟨h, _⟩
      · xexists b', lo', hi'
        rw [sep_emp]
        exact ent_refl _
      · exact absurd trivial h
  payW (45 + t * (lo + ws.length + hi))
  call hres
  intro _
  xintro b' lo' hi'
  callQ (lift (e := e) (ldStart (v := r)))
  intro s
  xsub
  callQ (lift (e := e) (ldStart (v := v)))
  intro s
  xsub
  callQ (lift (e := e) (size_spec (v := v)))
  intro s
  xsub
  unfold isDeq
  callQ (overwrite_spec hp (b := b) (i := 1 + lo) (c := b') (j := 1 + lo') (ws := ws) (us := List.replicate (lo + ws.length + hi) e.dflt) (by simp; omega))
  intro _
  retP
  xexists b', lo', hi'
  have e1 : (ws ++ (List.replicate (lo + ws.length + hi) e.dflt).drop ws.length) = ws ++ List.replicate (lo + hi) e.dflt := by
    rw [List.drop_replicate]; congr 2; omega
  have e2 : (ws ++ List.replicate (lo + hi) e.dflt).length = (List.replicate (lo + ws.length + hi) e.dflt).length := by simp; omega
  rw [e1, e2]
  cancel

theorem createFrom_time {T : Nat → Ops V} {e : ElemSpec True (T ty) W} {vb vi : Nat} (hp : e.Plain) (hty : ty ≠ 0) (hvb : vb ≠ 0) (hws : ws ≠ []) {t K : Nat} (hT : Takes (T ty) t) (hK : 53 + t * ws.length + 2 * ws.length ≤ K) :
    Triple True (live e vb vi ws) (within K (createFrom T ty (vb, vi) ws.length))
      (fun r => live e vb vi ws ∗ ∃ₛ b' lo' hi', isDeq e r b' lo' hi' ws) := by
  unfold createFrom
  rw [if_neg (by simp [hvb, hws, hty])]
  callQ (create_spec (e := e) hty)
  intro r
  xintro hr
  by_cases hr0 : r = 0
  · exact absurd trivial (hr hr0)
  rw [if_neg hr0, if_neg hr0]
  have hl : 0 < ws.length := List.length_pos_iff.2 hws
  payW (45 + t * ws.length)
  call (reserve_grow_time (e := e) (v := r) (b := 0) (lo := 0) (hi := 0) (k := ws.length) (by omega) hT (Nat.le_refl _))
  intro _
  xintro b' lo' hi' ws' h
  rcases h with rfl | ⟨h, _⟩
  · callQ (lift (e := e) (ldStart (v := r)))
    intro s
    xsub
    unfold isDeq
    callQ (overwrite_spec hp (b := vb) (i := vi) (c := b') (j := 1 + lo') (ws := ws) (us := List.replicate ws.length e.dflt) (by simp))
    intro _
    retP
    xexists b', lo', hi'
    rw [List.drop_eq_nil_of_le (by simp)]
    simp only [List.append_nil, List.length_replicate]
    cancel
  · exact absurd trivial h

theorem assign_grow_time {T : Nat → Ops V} {e : ElemSpec True (T ty) W} {v2 b2 lo2 hi2 : Nat} {ws2 : List W} (hp : e.Plain)
    (hlt : lo + ws.length + hi < lo2 + ws2.length + hi2) {t K : Nat} (hT : Takes (T ty) t) (hK : 64 + t * ws.length + t * (lo2 + ws2.length + hi2) + 2 * ws2.length ≤ K) :
    Triple True (isDeq e v b lo hi ws ∗ isDeq e v2 b2 lo2 hi2 ws2) (within K (assign T v v2))
      (fun r => ⌜r = v⌝ ∗ isDeq e v2 b2 lo2 hi2 ws2 ∗ ∃ₛ b' lo' hi', isDeq e v b' lo' hi' (ws2 ++ List.replicate (lo2 + hi2) e.dflt)) := by
  apply Triple.fact (p := v ≠ v2) (fun h hh => deqs_ne hh)
  intro hne
  apply deq_fact; intro hv
  rw [sep_comm]
  apply deq_fact; intro hv2
  unfold assign
  rw [if_neg (by simp [hv, hv2]), if_pos hne]
  payW (11 + t * ws.length)
  call (clear_any_time (v := v) hT (Nat.le_refl _))
  intro _
  callQ (lift (e := e) (ldTy (v := v2)))
  intro r
  xsub
  callQ (stTy_spec (v := v))
  intro _
  callQ (lift (e := e) (capacity_spec (v := v2)))
  intro c
  xsub
  payW (45 + t * (lo2 + ws2.length + hi2))
  call (reserve_grow_time (e := e) (v := v) (b := b) (lo := clearLo lo hi ws) (hi := clearHi lo hi ws) (k := lo2 + ws2.length + hi2) (by rw [clear_sum]; exact hlt) hT (Nat.le_refl _))
  intro _
  xintro b' lo' hi' ws' h
  rcases h with rfl | ⟨h, _⟩
  · callQ (lift (e := e) (ldStart (v := v)))
    intro s
    xsub
    callQ (lift (e := e) (ldStart (v := v2)))
    intro s
    xsub
    callQ (lift (e := e) (size_spec (v := v2)))
    intro s
    xsub
    unfold isDeq
    callQ (overwrite_spec hp (b := b2) (i := 1 + lo2) (c := b') (j := 1 + lo') (ws := ws2) (us := List.replicate (lo2 + ws2.length + hi2) e.dflt) (by simp; omega))
    intro _
    retP
    xexists b', lo', hi'
    have e1 : (ws2 ++ (List.replicate (lo2 + ws2.length + hi2) e.dflt).drop ws2.length) = ws2 ++ List.replicate (lo2 + hi2) e.dflt := by
      rw [List.drop_replicate]; congr 2; omega
    have e2 : (ws2 ++ List.replicate (lo2 + hi2) e.dflt).length = (List.replicate (lo2 + ws2.length + hi2) e.dflt).length := by simp; omega
    rw [e1, e2]
    cancel
  · exact absurd trivial h

theorem assign_lost_time {T : Nat → Ops V} {e : ElemSpec True (T ty) W} {v2 b2 lo2 hi2 : Nat} {ws2 : List W} (hp : e.Plain)
    (hge : lo2 + ws2.length + hi2 ≤ lo + ws.length + hi) (hfit : ws2.length ≤ clearHi lo hi ws) {t K : Nat} (hT : Takes (T ty) t) (hK : 21 + t * ws.length + 2 * ws2.length ≤ K) :
    Triple True (isDeq e v b lo hi ws ∗ isDeq e v2 b2 lo2 hi2 ws2) (within K (assign T v v2))
      (fun r => ⌜r = v⌝ ∗ isDeq e v2 b2 lo2 hi2 ws2 ∗ isDeq e v b (clearLo lo hi ws) (clearHi lo hi ws) []) := by
  apply Triple.fact (p := v ≠ v2) (fun h hh => deqs_ne hh)
  intro hne
  apply deq_fact; intro hv
  rw [sep_comm]
  apply deq_fact; intro hv2
  unfold assign
  rw [if_neg (by simp [hv, hv2]), if_pos hne]
  payW (11 + t * ws.length)
  call (clear_any_time (v := v) hT (Nat.le_refl _))
  intro _
  callQ (lift (e := e) (ldTy (v := v2)))
  intro r
  xsub
  callQ (stTy_spec (v := v))
  intro _
  callQ (lift (e := e) (capacity_spec (v := v2)))
  intro c
  xsub
  payW 2
  call (reserve_enough_time (e := e) (v := v) (b := b) (lo := clearLo lo hi ws) (hi := clearHi lo hi ws) (ws := []) (k := lo2 + ws2.length + hi2)
    (by have := clear_sum (lo := lo) (hi := hi) (ws := ws); simp only [List.length_nil]; omega) (Nat.le_refl _))
  intro _
  callQ (lift (e := e) (ldStart (v := v)))
  intro s
  xsub
  callQ (lift (e := e) (ldStart (v := v2)))
  intro s
  xsub
  callQ (lift (e := e) (size_spec (v := v2)))
  intro s
  xsub
  generalize clearLo lo hi ws = L at *
  generalize clearHi lo hi ws = H at *
  unfold isDeq
  have hr : raws (V := V) b (1 + L + ([] : List W).length) H = (raws b (1 + L) ws2.length ∗ raws b (1 + L + ws2.length) (H - ws2.length)) := by
    rw [← raws_append]; simp only [List.length_nil]; congr 1; omega
  rw [hr]
  callQ (overwrite_raw hp (b := b2) (i := 1 + lo2) (c := b) (j := 1 + L) (ws := ws2))
  intro _
  retP
  cancel

end CC.Deq
