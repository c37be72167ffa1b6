import Verif.Vec.Time
/-!
# Time of the vector operations, continued
-/
namespace CC.Vec
open CC CC.Tac
variable {V W β α : Type} {nf : Prop} {T : Nat → Ops V} {ty : Nat} {e : ElemSpec nf (T ty) W}
variable {v b n cap : Nat} {ws : List W} {R : HProp V}

theorem clear_time {t K : Nat} (hT : Takes (T ty) t) (hK : 7 + t * ws.length ≤ K) : Triple nf (isVec e v b cap ws) (within K (clear T v)) (fun _ => isVec e v b cap []) := by
  unfold isVec
  apply hdr_fact; intro hv
  xintro hcap
  unfold clear
  callQ empty_spec
  intro r
  xsub
  by_cases hw : ws = []
  · subst hw
    simp only [List.length_nil, decide_true, if_true]
    retP
    cancel
  · rw [if_neg (by simpa using hw)]
    callQ ldTy
    intro r
    xsub
    callQ begin_spec
    intro r
    xsub
    callQ end_spec
    intro r
    xsub
    payW (t * ws.length)
    call (destroyLoop_time (e := e) (b := b) (i := 1) (ws := ws) rfl hT (Nat.le_refl _))
    intro _
    callQ ldStart
    intro r
    xsub
    callQ (stFinish (b := b) (m := 0) rfl)
    intro _
    have h1 : raws (V := V) b 1 cap = (raws b 1 ws.length ∗ raws b (1 + ws.length) (cap - ws.length)) := by
      rw [← raws_append]; congr 1; omega
    simp only [List.length_nil, live_nil, Nat.add_zero, Nat.sub_zero, h1]
    cancel
    omega

theorem erase_time {X Y : List W} {w : W} {t K : Nat} (hT : Takes (T ty) t) (hK : 8 + t + 2 * Y.length ≤ K) :
    Triple nf (isVec e v b cap (X ++ w :: Y)) (within K (erase T v (b, 1 + X.length)))
      (fun r => ⌜r = (b, 1 + X.length)⌝ ∗ isVec e v b cap (X ++ Y)) := by
  unfold isVec
  apply hdr_fact; intro hv
  xintro hcap
  unfold erase
  rw [if_neg hv]
  callQ isValidPos_spec
  intro r
  xsub
  callQ ldFinish
  intro r
  xsub
  rw [if_neg (by simp)]
  callQ ldTy
  intro r
  xsub
  rw [live_append, live_cons]
  callQ (destroyCell_spec (e := e) (l := (b, 1 + X.length)) (w := w))
  intro _
  callQ ldFinish
  intro r
  xsub
  simp only [padd]
  pay; apply psub_spec (by simp; omega)
  have hn : 1 + (X ++ w :: Y).length - (1 + X.length + 1) = Y.length := by simp; omega
  rw [hn]
  have hr : (∃ₛ y, pts (V := V) (b, 1 + X.length) y) = raws b (1 + X.length) 1 := by simp [raws]
  rw [hr]
  callQ (memmove_down (e := e) (b := b) (i := 1 + X.length) (k := 1) (ws := Y) rfl rfl)
  intro _
  callQ ldFinish
  intro r
  xsub
  pay; apply pminus_spec (by simp; omega)
  callQ (stFinish (b := b) (m := (X ++ Y).length) (by simp; omega))
  intro _
  retP
  have h1 : cap - (X ++ Y).length = 1 + (cap - (X ++ w :: Y).length) := by simp at hcap ⊢; omega
  have h2 : 1 + X.length + Y.length = 1 + (X ++ Y).length := by simp; omega
  have h3 : 1 + (X ++ w :: Y).length = 1 + (X ++ Y).length + 1 := by simp; omega
  rw [h1, raws_append, live_append, h2, h3]
  cancel
  simp at hcap ⊢; omega

theorem erase_invalid_time {p : Loc} (hp : ¬ (p.1 = b ∧ 1 ≤ p.2 ∧ p.2 < 1 + ws.length)) {t K : Nat} (hT : Takes (T ty) t) (hK : 4 ≤ K) :
    Triple nf (isVec e v b cap ws) (within K (erase T v p)) (fun r => ⌜r = (b, 1 + ws.length)⌝ ∗ isVec e v b cap ws) := by
  unfold isVec
  apply hdr_fact; intro hv
  xintro hcap
  unfold erase
  rw [if_neg hv]
  callQ isValidPos_spec
  intro r
  xsub
  callQ ldFinish
  intro r
  xsub
  rw [if_pos ?_]
  · callQ vend_spec
    intro r
    xsub
    cancel
  · by_cases h : p = (b, 1 + ws.length)
    · exact Or.inr h
    · left
      simp only [Bool.not_eq_true', decide_eq_false_iff_not]
      rintro ⟨h1, h2, h3⟩
      refine hp ⟨h1, h2, ?_⟩
      rcases Nat.lt_or_eq_of_le h3 with h4 | h4
      · exact h4
      · exact absurd (Prod.ext h1 h4) h

theorem eraseRange_time {X Y Z : List W} {t K : Nat} (hT : Takes (T ty) t) (hK : 8 + t * Y.length + 2 * Z.length ≤ K) :
    Triple nf (isVec e v b cap (X ++ Y ++ Z)) (within K (eraseRange T v (b, 1 + X.length) (b, 1 + X.length + Y.length)))
      (fun r => ⌜r = (b, 1 + X.length)⌝ ∗ isVec e v b cap (X ++ Z)) := by
  unfold isVec
  apply hdr_fact; intro hv
  xintro hcap
  unfold eraseRange
  rw [if_neg hv]
  callQ isValidPos_spec
  intro r
  xsub
  callQ isValidPos_spec
  intro r
  xsub
  rw [if_neg (by
    rintro (h | h | ⟨h1, h2⟩)
    · simp at h
    · simp at h; omega
    · simp [pge] at h1
      exact h2 (by rw [show 1 + X.length + Y.length = 1 + X.length by omega]))]
  by_cases hY : Y = []
  · subst hY
    rw [if_pos (by simp)]
    retP
    simp only [List.length_nil, Nat.add_zero, List.append_nil]
    cancel
    simpa using hcap
  · have hY' : Y.length ≠ 0 := by simpa using hY
    rw [if_neg (by simp; simpa using hY)]
    callQ ldTy
    intro r
    xsub
    rw [live_append, live_append]
    payW (t * Y.length)
    call (destroyLoop_time (e := e) (b := b) (i := 1 + X.length) (ws := Y) rfl hT (Nat.le_refl _))
    intro _
    callQ ldFinish
    intro r
    xsub
    pay; apply psub_spec (by simp; omega)
    have hn : 1 + (X ++ Y ++ Z).length - (1 + X.length + Y.length) = Z.length := by simp; omega
    have hl : 1 + (X ++ Y).length = 1 + X.length + Y.length := by simp; omega
    rw [hn, hl]
    callQ (memmove_down (e := e) (b := b) (i := 1 + X.length) (k := Y.length) (ws := Z) rfl rfl)
    intro _
    pay; apply psub_spec (by omega)
    callQ ldFinish
    intro r
    xsub
    pay; apply pminus_spec (by simp; omega)
    callQ (stFinish (b := b) (m := (X ++ Z).length) (by simp; omega))
    intro _
    retP
    have h1 : cap - (X ++ Z).length = Y.length + (cap - (X ++ Y ++ Z).length) := by simp at hcap ⊢; omega
    have h2 : 1 + X.length + Z.length = 1 + (X ++ Z).length := by simp; omega
    have h3 : 1 + (X ++ Y ++ Z).length = 1 + (X ++ Z).length + Y.length := by simp; omega
    rw [h1, raws_append, live_append, h2, h3]
    cancel
    simp at hcap ⊢; omega

theorem resizeWithValue_time {count : Nat} {value : Loc} {w : W} (hp : e.Plain ∨ ws = [] ∨ count ≤ cap) {t K : Nat} (hT : Takes (T ty) t) (hK : 26 + t * (count - ws.length) + (if cap < count then t * ws.length + 2 * ws.length else t * (ws.length - count)) ≤ K) :
    Triple nf (isVec e v b cap ws ∗ arg e value w) (within K (resizeWithValue T v count value))
      (fun _ => ∃ₛ b' cap' ws', ⌜Res nf (cap < count) b cap ws (if cap < count then newCap cap (count - ws.length) ws.length else cap)
          (ws.take count ++ List.replicate (count - ws.length) w) b' cap' ws'⌝ ∗ isVec e v b' cap' ws' ∗ arg e value w) := by
  apply vec_facts; intro hv hcap
  unfold resizeWithValue
  rw [if_neg hv]
  have hsize : ∀ {b cap}, Triple nf (isVec e v b cap ws) (size v) (fun r => ⌜r = ws.length⌝ ∗ isVec e v b cap ws) := by
    intro b cap; unfold isVec; xintro h; call size_spec; intro r; xsub; cancel
  callQ hsize
  intro r
  xsub
  by_cases hlt : ws.length < count
  · rw [if_pos hlt]
    callQ hsize
    intro r
    xsub
    have hav : Triple nf (isVec e v b cap ws) (available v) (fun r => ⌜r = cap - ws.length⌝ ∗ isVec e v b cap ws) := by
      unfold isVec; xintro h; call (available_spec h); intro r; xsub; cancel
    callQ hav
    intro r
    xsub
    have htail : ∀ b' cap', count ≤ cap' → Triple nf (isVec e v b' cap' ws ∗ arg e value w) (within (4 + t * (count - ws.length)) (do
        let e ← end_ v
        let ty ← ldN (v, 4)
        fill (T ty) e (count - ws.length) value
        let f ← ldP (v, 2)
        stP (v, 2) (padd f (count - ws.length))))
        (fun _ => isVec e v b' cap' (ws ++ List.replicate (count - ws.length) w) ∗ arg e value w) := by
      intro b' cap' hc'
      unfold isVec
      xintro h
      callQ end_spec
      intro r
      xsub
      callQ ldTy
      intro r
      xsub
      rw [show cap' - ws.length = (count - ws.length) + (cap' - count) by omega, raws_append]
      callQ (fill_spec (e := e) (b := b') (i := 1 + ws.length) (n := count - ws.length) (value := value) (w := w))
      intro _
      callQ ldFinish
      intro r
      xsub
      callQ (stFinish (b := b') (m := (ws ++ List.replicate (count - ws.length) w).length) (by simp [padd]; omega))
      intro _
      have h1 : (ws ++ List.replicate (count - ws.length) w).length = count := by simp; omega
      rw [live_append, h1]
      have h2 : 1 + ws.length + (count - ws.length) = 1 + count := by omega
      rw [h2]
      cancel
    have htake : ws.take count = ws := List.take_of_length_le (by omega)
    rw [htake]
    by_cases hfull : cap - ws.length < count - ws.length
    · rw [if_pos hfull]
      have hfull' : cap < count := by omega
      have hp' : e.Plain ∨ ws = [] := by
        rcases hp with h | h | h
        · exact Or.inl h
        · exact Or.inr h
        · omega
      rw [if_pos hfull'] at hK
      payW (16 + t * ws.length + 2 * ws.length)
      call (realloc_time (k := count - ws.length) hp' hT (Nat.le_refl _))
      intro failed
      cases failed with
      | true =>
        simp only [if_true]
        xintro h
        retP
        xexists b, cap, ws
        cancel
        exact Or.inr ⟨h, hfull', rfl, rfl, rfl⟩
      | false =>
        simp only [Bool.false_eq_true, if_false]
        xintro b' hb'
        have hN : count ≤ newCap cap (count - ws.length) ws.length := by unfold newCap; split <;> omega
        refine Triple.post (Triple.le (within_mono (by omega)) (htail b' _ hN)) ?_
        intro _
        xexists b', newCap cap (count - ws.length) ws.length, ws ++ List.replicate (count - ws.length) w
        cancel
        refine Or.inl ⟨rfl, ?_, fun h => absurd hfull' h⟩
        rw [if_pos hfull']
    · rw [if_neg hfull]
      have hfull' : ¬ cap < count := by omega
      pay; step
      rw [if_neg (by simp)]
      refine Triple.post (Triple.le (within_mono (by omega)) (htail b cap (by omega))) ?_
      intro _
      xexists b, cap, ws ++ List.replicate (count - ws.length) w
      cancel
      refine Or.inl ⟨rfl, ?_, fun _ => rfl⟩
      rw [if_neg hfull']
  · rw [if_neg hlt]
    obtain ⟨X, Y, rfl, rfl⟩ : ∃ X Y, ws = X ++ Y ∧ X.length = count :=
      ⟨ws.take count, ws.drop count, by simp, by simp; omega⟩
    unfold isVec
    xintro h
    callQ ldStart
    intro r
    xsub
    callQ ldTy
    intro r
    xsub
    callQ end_spec
    intro r
    xsub
    simp only [padd]
    rw [live_append]
    rw [if_neg (by simp at hcap ⊢; omega), show (X ++ Y).length - X.length = Y.length by simp] at hK
    payW (t * Y.length)
    call (destroyLoop_time (e := e) (b := b) (i := 1 + X.length) (ws := Y) (by simp; omega) hT (Nat.le_refl _))
    intro _
    callQ (stFinish (b := b) (m := X.length) rfl)
    intro _
    xexists b, cap, X
    have h1 : cap - X.length = Y.length + (cap - (X ++ Y).length) := by simp at hcap ⊢; omega
    have h2 : 1 + (X ++ Y).length = 1 + X.length + Y.length := by simp; omega
    rw [h1, raws_append, h2]
    cancel
    · simp at hcap; omega
    · refine Or.inl ⟨?_, ?_, fun _ => rfl⟩
      · simp
      · rw [if_neg]; simp at hcap; omega

theorem resize_time {count : Nat} (hp : e.Plain ∨ ws = [] ∨ count ≤ cap) {t K : Nat} (hT : Takes (T ty) t) (hK : 26 + t * (count - ws.length) + (if cap < count then t * ws.length + 2 * ws.length else t * (ws.length - count)) ≤ K) :
    Triple nf (isVec e v b cap ws) (within K (resize T v count))
      (fun _ => ∃ₛ b' cap' ws', ⌜Res nf (cap < count) b cap ws (if cap < count then newCap cap (count - ws.length) ws.length else cap)
          (ws.take count ++ List.replicate (count - ws.length) e.dflt) b' cap' ws'⌝ ∗ isVec e v b' cap' ws') := by
  unfold resize
  refine Triple.conseq (resizeWithValue_time (b := b) (value := (0, 0)) (w := e.dflt) hp hT hK) ?_ ?_
  · rw [arg_null rfl]
    cancel
  · intro _
    rw [arg_null rfl]
    xintro b' cap' ws' h _
    xexists b', cap', ws'
    cancel

theorem reserve_time {k : Nat} (hp : e.Plain ∨ ws = []) {t K : Nat} (hT : Takes (T ty) t) (hK : 2 + (if cap < k then 26 + t * (k - ws.length) + (t * ws.length + 2 * ws.length) else 0) ≤ K) :
    Triple nf (isVec e v b cap ws) (within K (reserve T v k))
      (fun _ => ∃ₛ b' cap' ws', ⌜Res nf (cap < k) b cap ws (if cap < k then newCap cap (k - ws.length) ws.length else cap)
          (if cap < k then ws ++ List.replicate (k - ws.length) e.dflt else ws) b' cap' ws'⌝ ∗ isVec e v b' cap' ws') := by
  apply vec_facts'; intro hv hcap
  unfold reserve
  rw [if_neg hv]
  have hc : Triple nf (isVec e v b cap ws) (capacity v) (fun r => ⌜r = cap⌝ ∗ isVec e v b cap ws) := by
    unfold isVec; xintro h; call capacity_spec; intro r; xsub; cancel
  callQ hc
  intro r
  xsub
  by_cases hk : k ≤ cap
  · rw [if_pos hk]
    retP
    xexists b, cap, ws
    cancel
    refine Or.inl ⟨?_, ?_, fun _ => rfl⟩ <;> rw [if_neg (by omega)]
  · rw [if_neg hk]
    rw [if_pos (show cap < k by omega)] at hK
    refine Triple.post (resize_time (hp.imp id Or.inl) hT (by rw [if_pos (show cap < k by omega)]; omega)) ?_
    intro _
    xintro b' cap' ws' h
    xexists b', cap', ws'
    rw [List.take_of_length_le (by omega)] at h
    cancel
    have h2 : cap < k := by omega
    rw [if_pos h2] at h ⊢
    rw [if_pos h2]
    exact h

theorem destroy_time {t K : Nat} (hT : Takes (T ty) t) (hK : 14 + t * ws.length ≤ K) : Triple nf (isVec e v b cap ws) (within K (destroy T v)) (fun _ => emp) := by
  apply vec_facts'; intro hv hcap
  unfold destroy
  rw [if_neg hv]
  payW (7 + t * ws.length)
  call (clear_time hT (Nat.le_refl _))
  intro _
  unfold isVec
  xintro h
  callQ ldStart
  intro r
  xsub
  unfold vhdr
  simp only [List.length_nil, live_nil, Nat.sub_zero, Nat.add_zero]
  callQ (freeStorage_spec (b := b) (cap := cap))
  intro _
  pay; step
  callQ free4
  intro _
  cancel

theorem insertRoom_time {count k : Nat} (hk : k ≤ ws.length) (hp : e.Plain ∨ ws = [] ∨ ws.length + count ≤ cap) {t K : Nat} (hT : Takes (T ty) t) (hK : 5 + (if cap < ws.length + count then 17 + t * ws.length + 2 * ws.length else 0) ≤ K) :
    Triple nf (isVec e v b cap ws) (within K (insertRoom T v (b, 1 + k) count))
      (fun r => match r with
        | none => ⌜¬ nf ∧ cap < ws.length + count⌝ ∗ isVec e v b cap ws
        | some p => ∃ₛ b', ⌜p = (b', 1 + k) ∧ (¬ cap < ws.length + count → b' = b) ∧ (cap < ws.length + count → b' ≠ 0)⌝ ∗
            isVec e v b' (insCap cap ws.length count) ws) := by
  apply vec_facts'; intro hv hcap
  unfold insertRoom
  have hav : Triple nf (isVec e v b cap ws) (available v) (fun r => ⌜r = cap - ws.length⌝ ∗ isVec e v b cap ws) := by
    unfold isVec; xintro h; call (available_spec h); intro r; xsub; cancel
  have hst : ∀ {b cap}, Triple nf (isVec e v b cap ws) (ldP (v, 1)) (fun r => ⌜r = (b, 1)⌝ ∗ isVec e v b cap ws) := by
    intro b cap; unfold isVec; xintro h; call ldStart; intro r; xsub; cancel
  callQ hav
  intro r
  xsub
  by_cases hfull : cap < ws.length + count
  · rw [if_pos (by omega)]
    have hp' : e.Plain ∨ ws = [] := by
      rcases hp with h | h | h
      · exact Or.inl h
      · exact Or.inr h
      · omega
    callQ hst
    intro r
    xsub
    pay; apply psub_spec (by omega)
    callQ hav
    intro r
    xsub
    rw [if_pos hfull] at hK
    payW (16 + t * ws.length + 2 * ws.length)
    call (realloc_time (k := count - (cap - ws.length)) hp' hT (Nat.le_refl _))
    intro failed
    cases failed with
    | true =>
      simp only [if_true]
      xintro h
      retP
      dsimp only
      cancel
    | false =>
      simp only [Bool.false_eq_true, if_false]
      xintro b' hb'
      callQ hst
      intro r
      xsub
      retP
      xexists b'
      have : insCap cap ws.length count = newCap cap (count - (cap - ws.length)) ws.length := if_pos hfull
      rw [this]
      cancel
      exact ⟨by simp [padd], fun h => absurd hfull h, fun _ => hb'⟩
  · rw [if_neg (by omega)]
    retP
    xexists b
    have : insCap cap ws.length count = cap := if_neg hfull
    rw [this]
    cancel
    exact ⟨rfl, fun _ => rfl, fun h => absurd h hfull⟩

theorem insertN_time {X Y : List W} {count : Nat} {value : Loc} {w : W} (hv0 : value.1 ≠ 0)
    (hroom : (X ++ Y).length + count ≤ insCap cap (X ++ Y).length count)
    (hp : e.Plain ∨ X ++ Y = [] ∨ (X ++ Y).length + count ≤ cap) {t K : Nat} (hT : Takes (T ty) t) (hK : 11 + t * count + 2 * Y.length + (if cap < (X ++ Y).length + count then 17 + t * (X ++ Y).length + 2 * (X ++ Y).length else 0) ≤ K) :
    Triple nf (isVec e v b cap (X ++ Y) ∗ cell e value w) (within K (insertN T v (b, 1 + X.length) count value))
      (fun r => ∃ₛ b' cap' ws', ⌜Res nf (cap < (X ++ Y).length + count) b cap (X ++ Y) (insCap cap (X ++ Y).length count)
          (X ++ List.replicate count w ++ Y) b' cap' ws' ∧
          (r = (b', 1 + X.length) ∧ ws' = X ++ List.replicate count w ++ Y ∨
            r = (b, 1 + (X ++ Y).length) ∧ ¬ nf ∧ cap < (X ++ Y).length + count ∧ ws' = X ++ Y ∧ b' = b ∧ cap' = cap)⌝ ∗
        isVec e v b' cap' ws' ∗ cell e value w) := by
  apply vec_facts; intro hv hcap
  unfold insertN
  rw [if_neg (by simp [hv, hv0])]
  have hval : Triple nf (isVec e v b cap (X ++ Y)) (isValidPos v (b, 1 + X.length)) (fun r => ⌜r = true⌝ ∗ isVec e v b cap (X ++ Y)) := by
    unfold isVec; xintro h; call isValidPos_spec; intro r; xsub; cancel; simp
  callQ hval
  intro r
  xsub
  simp only [Bool.not_true, Bool.false_eq_true, if_false]
  payW (5 + (if cap < (X ++ Y).length + count then 17 + t * (X ++ Y).length + 2 * (X ++ Y).length else 0))
  call (insertRoom_time (count := count) (k := X.length) (by simp) hp hT (Nat.le_refl _))
  generalize (if cap < (X ++ Y).length + count then 17 + t * (X ++ Y).length + 2 * (X ++ Y).length else 0) = G at hK ⊢
  intro r
  cases r with
  | none =>
    dsimp only
    xintro h
    have hend : Triple nf (isVec e v b cap (X ++ Y)) (vend v) (fun r => ⌜r = (b, 1 + (X ++ Y).length)⌝ ∗ isVec e v b cap (X ++ Y)) := by
      unfold isVec; xintro h; call vend_spec; intro r; xsub; cancel
    callQ hend
    intro r
    xsub
    xexists b, cap, X ++ Y
    cancel
    exact ⟨Or.inr ⟨h.1, h.2, rfl, rfl, rfl⟩, Or.inr ⟨rfl, h.1, h.2, rfl, rfl, rfl⟩⟩
  | some p =>
    dsimp only
    xintro b' h
    obtain ⟨rfl, h1, h2⟩ := h
    generalize hN : insCap cap (X ++ Y).length count = N at *
    unfold isVec
    xintro hc'
    callQ ldFinish
    intro r
    xsub
    pay; apply psub_spec (by simp)
    have hn : 1 + (X ++ Y).length - (1 + X.length) = Y.length := by simp; omega
    rw [hn, live_append]
    have hl : 1 + (X ++ Y).length = 1 + X.length + Y.length := by simp; omega
    have hr : raws (V := V) b' (1 + (X ++ Y).length) (N - (X ++ Y).length) =
        (raws b' (1 + X.length + Y.length) count ∗ raws b' (1 + X.length + Y.length + count) (N - ((X ++ Y).length + count))) := by
      rw [hl, ← raws_append]; congr 1; omega
    rw [hr]
    simp only [padd]
    callQ (memmove_up (e := e) (b := b') (i := 1 + X.length) (k := count) (ws := Y) rfl rfl)
    intro _
    callQ ldTy
    intro r
    xsub
    have hf := fill_spec (e := e) (b := b') (i := 1 + X.length) (n := count) (value := value) (w := w)
    rw [arg_cell hv0] at hf
    callQ hf
    intro _
    callQ ldFinish
    intro r
    xsub
    callQ (stFinish (b := b') (m := (X ++ List.replicate count w ++ Y).length) (by simp; omega))
    intro _
    retP
    xexists b', N, X ++ List.replicate count w ++ Y
    have e1 : 1 + (X ++ List.replicate count w ++ Y).length = 1 + X.length + Y.length + count := by simp; omega
    have e2 : (X ++ List.replicate count w ++ Y).length = (X ++ Y).length + count := by simp; omega
    have e3 : 1 + (X ++ List.replicate count w).length = 1 + X.length + count := by simp; omega
    rw [live_append, live_append, e1, e2, e3]
    cancel
    exact ⟨Or.inl ⟨rfl, rfl, h1⟩, by simp⟩

theorem insertN_invalid_time {count : Nat} {p value : Loc} (hv0 : value.1 ≠ 0) (hp : ¬ (p.1 = b ∧ 1 ≤ p.2 ∧ p.2 ≤ 1 + ws.length)) {t K : Nat} (hT : Takes (T ty) t) (hK : 3 ≤ K) :
    Triple nf (isVec e v b cap ws) (within K (insertN T v p count value)) (fun r => ⌜r = (b, 1 + ws.length)⌝ ∗ isVec e v b cap ws) := by
  apply vec_facts'; intro hv hcap
  unfold insertN
  rw [if_neg (by simp [hv, hv0])]
  unfold isVec
  xintro h
  callQ isValidPos_spec
  intro r
  xsub
  rw [decide_eq_false hp]
  simp only [Bool.not_false, if_true]
  callQ vend_spec
  intro r
  xsub
  cancel

theorem shrinkToFit_time (hp : e.Plain ∨ ws = [] ∨ ws.length = cap) {t K : Nat} (hT : Takes (T ty) t) (hK : 14 + t * ws.length + 2 * ws.length ≤ K) :
    Triple nf (isVec e v b cap ws) (within K (shrinkToFit T v))
      (fun _ => ∃ₛ b' cap', ⌜cap' = ws.length ∨ (¬ nf ∧ b' = b ∧ cap' = cap)⌝ ∗ isVec e v b' cap' ws) := by
  unfold isVec
  apply hdr_fact; intro hv
  xintro hcap
  unfold shrinkToFit
  rw [if_neg hv]
  callQ eos_spec
  intro r
  xsub
  callQ end_spec
  intro r
  xsub
  by_cases hfit : ws.length = cap
  · rw [if_pos (by simp [hfit])]
    retP
    xexists b, cap
    cancel
    exact Or.inl hfit.symm
  rw [if_neg (by simp; omega)]
  have hp' : e.Plain ∨ ws = [] := by
    rcases hp with h | h | h
    · exact Or.inl h
    · exact Or.inr h
    · exact absurd h hfit
  callQ ldFinish
  intro r
  xsub
  callQ ldStart
  intro r
  xsub
  pay; apply psub_spec (by omega)
  rw [show 1 + ws.length - 1 = ws.length by omega]
  by_cases hw : ws = []
  · subst hw
    simp only [List.length_nil, if_true, live_nil, Nat.sub_zero, Nat.add_zero]
    unfold vhdr
    callQ (freeStorage_spec (b := b) (cap := cap))
    intro _
    stepsP
    retP
    xexists 0, 0
    rw [buf_zero]
    simp only [Nat.sub_zero, Nat.add_zero, raws_zero]
    cancel
    exact Or.inl trivial
  rw [if_neg (by simpa using hw)]
  pay; apply mallocO_spec
  · intro h
    rw [if_pos rfl]
    retP
    xexists b, cap
    cancel
    exact Or.inr ⟨h, rfl, rfl⟩
  intro a ha
  rw [if_neg ha]
  callQ (memcpy_plain (e := e) (b := b) (i := 1) (c := a) (j := 1) (n := ws.length) (ws := ws) rfl hp')
  intro _
  callQ ldTy
  intro r
  xsub
  callQ vbegin_spec
  intro r
  xsub
  callQ vend_spec
  intro r
  xsub
  payW (t * ws.length)
  call (destroyLoop_time (e := e) (b := b) (i := 1) (ws := ws) rfl hT (Nat.le_refl _))
  intro _
  callQ ldStart
  intro r
  xsub
  unfold vhdr
  refine Triple.pre (P' := (buf b cap ∗ raws b 1 cap) ∗ live e a 1 ws ∗ blk a ws.length ∗
      (blk v 4 ∗ pts (v, 1) (.ptr b 1) ∗ pts (v, 2) (.ptr b (1 + ws.length)) ∗ pts (v, 3) (.ptr b (1 + cap)) ∗ fld v 4 ty)) ?_ ?_
  · have : raws (V := V) b 1 cap = (raws b 1 ws.length ∗ raws b (1 + ws.length) (cap - ws.length)) := by
      rw [← raws_append]; congr 1; omega
    rw [this]
    cancel
  callQ (freeStorage_spec (b := b) (cap := cap))
  intro _
  stepsP
  retP
  xexists a, ws.length
  rw [buf_ne ha]
  simp only [padd, Nat.sub_self, raws_zero]
  cancel
  · exact Nat.le_refl _
  · exact Or.inl trivial

theorem copy_time {T : Nat → Ops V} {e : ElemSpec True (T ty) W} (hp : e.Plain) (hty : ty ≠ 0) {t K : Nat} (hT : Takes (T ty) t) (hK : 40 + t * cap + 2 * cap ≤ K) :
    Triple True (isVec e v b cap ws) (within K (copy T v))
      (fun r => isVec e v b cap ws ∗ ∃ₛ b', isVec e r b' cap (ws ++ List.replicate (cap - ws.length) e.dflt)) := by
  apply vec_facts'; intro hv hcap
  unfold copy
  rw [if_neg hv]
  have hldty : Triple True (isVec e v b cap ws) (ldN (v, 4)) (fun r => ⌜r = ty⌝ ∗ isVec e v b cap ws) := by
    unfold isVec; xintro h; call ldTy; intro r; xsub; cancel
  callQ hldty
  intro r
  xsub
  pay; apply create_spec (e := e) hty
  · intro h; exact absurd trivial h
  intro r hr
  rw [if_neg hr]
  callQ (vcapacity_spec (v := v) (b := b) (cap := cap) (ws := ws) (e := e))
  intro c
  xsub
  have hB : 2 + (if 0 < cap then 26 + t * (cap - ([] : List W).length) + (t * ([] : List W).length + 2 * ([] : List W).length) else 0) ≤ 28 + t * cap := by
    simp only [List.length_nil, Nat.sub_zero, Nat.mul_zero, Nat.add_zero]
    split <;> omega
  payW (28 + t * cap)
  call (reserve_time (e := e) (v := r) (b := 0) (cap := 0) (ws := []) (k := cap) (Or.inl hp) hT hB)
  intro _
  xintro b' cap' ws' h
  have hw : ws' = List.replicate cap e.dflt ∧ cap' = cap := by
    rcases h with ⟨h1, h2, _⟩ | ⟨h, _⟩
    · by_cases hc : 0 < cap
      · rw [if_pos hc] at h1 h2
        simp only [List.nil_append, List.length_nil, Nat.sub_zero] at h1 h2
        refine ⟨h1, ?_⟩
        rw [h2]; unfold newCap; rw [if_pos (by omega)]; omega
      · have : cap = 0 := by omega
        subst this
        rw [if_neg hc] at h1 h2
        exact ⟨h1, h2⟩
    · exact absurd trivial h
  obtain ⟨rfl, rfl⟩ := hw
  have hst : ∀ {v b : Nat} {ws : List W}, Triple True (isVec e v b cap' ws) (ldP (v, 1)) (fun r => ⌜r = (b, 1)⌝ ∗ isVec e v b cap' ws) := by
    intro v b ws; unfold isVec; xintro h; call ldStart; intro r; xsub; cancel
  callQ (hst (v := r))
  intro s
  xsub
  callQ (hst (v := v))
  intro s
  xsub
  callQ (vsize_spec (v := v) (e := e))
  intro s
  xsub
  unfold isVec
  xintro _ _
  callQ (overwrite_spec hp (b := b) (i := 1) (c := b') (j := 1) (ws := ws) (us := List.replicate cap' e.dflt) (by simp; omega))
  intro _
  retP
  xexists b'
  have e1 : (ws ++ (List.replicate cap' e.dflt).drop ws.length) = ws ++ List.replicate (cap' - ws.length) e.dflt := by
    rw [List.drop_replicate]
  have e2 : (ws ++ List.replicate (cap' - ws.length) e.dflt).length = cap' := by simp; omega
  rw [e1, e2, List.length_replicate]
  cancel
  exact Nat.le_refl _

theorem assign_time {T : Nat → Ops V} {e : ElemSpec True (T ty) W} {v2 b2 cap2 : Nat} {ws2 : List W} (hp : e.Plain) {t K : Nat} (hT : Takes (T ty) t) (hK : 45 + t * ws.length + t * cap2 + 2 * ws2.length ≤ K) :
    Triple True (isVec e v b cap ws ∗ isVec e v2 b2 cap2 ws2) (within K (assign T v v2))
      (fun r => ⌜r = v⌝ ∗ isVec e v2 b2 cap2 ws2 ∗ ∃ₛ b', isVec e v b'
        (if cap < cap2 then newCap cap cap2 0 else cap)
        (if cap < cap2 then ws2 ++ List.replicate (cap2 - ws2.length) e.dflt else [])) := by
  apply Triple.fact (p := v ≠ v2)
  · intro h hh
    unfold isVec vhdr at hh
    have := loc_ne_of (l₁ := (v, 0)) (l₂ := (v2, 0)) hh (by
        xintro _ _
        cancel)
    intro h; exact this (by rw [h])
  intro hne
  apply vec_facts; intro hv hcap
  rw [sep_comm]
  apply vec_facts; intro hv2 hcap2
  unfold assign
  rw [if_neg (by simp [hv, hv2]), if_pos hne]
  payW (7 + t * ws.length)
  call (clear_time (v := v) hT (Nat.le_refl _))
  intro _
  have hldty : ∀ {v b cap : Nat} {ws : List W}, Triple True (isVec e v b cap ws) (ldN (v, 4)) (fun r => ⌜r = ty⌝ ∗ isVec e v b cap ws) := by
    intro v b cap ws; unfold isVec; xintro h; call ldTy; intro r; xsub; cancel
  have hstty : ∀ {v b cap : Nat} {ws : List W}, Triple True (isVec e v b cap ws) (stN (v, 4) ty) (fun r => isVec e v b cap ws) := by
    intro v b cap ws; unfold isVec vhdr; xintro h; rw [← bind_pure (stN (v, 4) ty)]; step; apply Triple.ret; cancel
  have hst : ∀ {v b cap : Nat} {ws : List W}, Triple True (isVec e v b cap ws) (ldP (v, 1)) (fun r => ⌜r = (b, 1)⌝ ∗ isVec e v b cap ws) := by
    intro v b cap ws; unfold isVec; xintro h; call ldStart; intro r; xsub; cancel
  callQ (hldty (v := v2))
  intro r
  xsub
  callQ (hstty (v := v))
  intro _
  callQ (vcapacity_spec (v := v2) (e := e))
  intro c
  xsub
  have hB : 2 + (if cap < cap2 then 26 + t * (cap2 - ([] : List W).length) + (t * ([] : List W).length + 2 * ([] : List W).length) else 0) ≤ 28 + t * cap2 := by
    simp only [List.length_nil, Nat.sub_zero, Nat.mul_zero, Nat.add_zero]
    split <;> omega
  payW (28 + t * cap2)
  call (reserve_time (e := e) (v := v) (b := b) (cap := cap) (ws := []) (k := cap2) (Or.inl hp) hT hB)
  intro _
  xintro b' cap' ws' h
  obtain ⟨h1, h2, _⟩ := h.resolve_right (fun h => h.1 trivial)
  callQ (hst (v := v))
  intro s
  xsub
  callQ (hst (v := v2))
  intro s
  xsub
  callQ (vsize_spec (v := v2) (e := e))
  intro s
  xsub
  by_cases hc : cap < cap2
  · simp only [if_pos hc] at h1 h2 ⊢
    simp only [List.nil_append, List.length_nil, Nat.sub_zero] at h1 h2
    subst h1 h2
    unfold isVec
    xintro _ hle
    callQ (overwrite_spec hp (b := b2) (i := 1) (c := b') (j := 1) (ws := ws2) (us := List.replicate cap2 e.dflt) (by simp; omega))
    intro _
    retP
    xexists b'
    have e1 : (ws2 ++ (List.replicate cap2 e.dflt).drop ws2.length) = ws2 ++ List.replicate (cap2 - ws2.length) e.dflt := by
      rw [List.drop_replicate]
    have e2 : (ws2 ++ List.replicate (cap2 - ws2.length) e.dflt).length = cap2 := by simp; omega
    rw [List.length_replicate] at hle
    rw [e1, e2, List.length_replicate]
    cancel
  · simp only [if_neg hc] at h1 h2 ⊢
    subst h1 h2
    unfold isVec
    xintro hle _
    have hr : raws (V := V) b' (1 + ([] : List W).length) (cap' - ([] : List W).length) =
        (raws b' 1 ws2.length ∗ raws b' (1 + ws2.length) (cap' - ws2.length)) := by
      rw [← raws_append]; simp only [List.length_nil]; congr 1; omega
    rw [hr]
    callQ (overwrite_raw hp (b := b2) (i := 1) (c := b') (j := 1) (ws := ws2))
    intro _
    retP
    xexists b'
    rw [hr]
    cancel

theorem createN_time {count : Nat} {value : Loc} {w : W} (hty : ty ≠ 0) (hv0 : value.1 ≠ 0) (hn : count ≠ 0) {t K : Nat} (hT : Takes (T ty) t) (hK : 33 + t * count ≤ K) :
    Triple nf (cell e value w) (within K (createN T ty count value))
      (fun r => cell e value w ∗ ⌜r = 0 → ¬ nf⌝ ∗
        if r = 0 then emp else ∃ₛ b' cap' ws', ⌜(ws' = List.replicate count w ∧ cap' = count) ∨ (¬ nf ∧ ws' = [] ∧ cap' = 0)⌝ ∗ isVec e r b' cap' ws') := by
  unfold createN
  rw [if_neg (by simp [hv0, hn])]
  pay; apply create_spec (e := e) hty
  · intro h
    rw [if_pos rfl]
    retP
    rw [if_pos rfl]
    cancel
    exact fun _ => h
  intro r hr
  rw [if_neg hr]
  have := resizeWithValue_time (e := e) (v := r) (b := 0) (cap := 0) (ws := []) (count := count) (value := value) (w := w) (K := 26 + t * count) (Or.inr (Or.inl rfl)) hT (by
    simp only [List.length_nil, Nat.sub_zero, Nat.mul_zero, Nat.add_zero, Nat.zero_sub]
    split <;> omega)
  rw [arg_cell hv0] at this
  payW (26 + t * count)
  call this
  intro _
  xintro b' cap' ws' h
  retP
  rw [if_neg hr]
  xexists b', cap', ws'
  cancel
  · exact fun h => absurd h hr
  · rcases h with ⟨h1, h2, _⟩ | ⟨h, _, h2, _, h3⟩
    · rw [if_pos (by omega)] at h2
      simp at h1 h2
      refine Or.inl ⟨h1, ?_⟩
      rw [h2]; unfold newCap; rw [if_pos (by omega)]; omega
    · exact Or.inr ⟨h, h2, h3⟩

theorem createFromArray_time {T : Nat → Ops V} {e : ElemSpec True (T ty) W} {vb vi : Nat} (hp : e.Plain) (hty : ty ≠ 0) (hvb : vb ≠ 0) (hws : ws ≠ []) {t K : Nat} (hT : Takes (T ty) t) (hK : 40 + t * ws.length + 2 * ws.length ≤ K) :
    Triple True (live e vb vi ws) (within K (createFromArray T ty (vb, vi) ws.length))
      (fun r => live e vb vi ws ∗ ∃ₛ b', isVec e r b' ws.length ws) := by
  unfold createFromArray
  rw [if_neg (by simp [hvb, hws])]
  pay; apply create_spec (e := e) hty
  · intro h; exact absurd trivial h
  intro r hr
  rw [if_neg hr]
  have hB : 2 + (if 0 < ws.length then 26 + t * (ws.length - ([] : List W).length) + (t * ([] : List W).length + 2 * ([] : List W).length) else 0) ≤ 28 + t * ws.length := by
    simp only [List.length_nil, Nat.sub_zero, Nat.mul_zero, Nat.add_zero]
    split <;> omega
  payW (28 + t * ws.length)
  call (reserve_time (e := e) (v := r) (b := 0) (cap := 0) (ws := []) (k := ws.length) (Or.inl hp) hT hB)
  intro _
  xintro b' cap' ws' h
  have hl : 0 < ws.length := List.length_pos_iff.2 hws
  obtain ⟨h1, h2, _⟩ := h.resolve_right (fun h => h.1 trivial)
  simp only [if_pos hl, List.nil_append, List.length_nil, Nat.sub_zero] at h1 h2
  have h2 : cap' = ws.length := by rw [h2]; unfold newCap; rw [if_pos (by omega)]; omega
  subst h1 h2
  unfold isVec
  xintro hle
  callQ ldStart
  intro r
  xsub
  callQ (overwrite_spec hp (b := vb) (i := vi) (c := b') (j := 1) (ws := ws) (us := List.replicate ws.length e.dflt) (by simp))
  intro _
  retP
  xexists b'
  rw [List.drop_eq_nil_of_le (by simp)]
  simp only [List.append_nil, List.length_replicate]
  cancel
  exact Nat.le_refl _

end CC.Vec
