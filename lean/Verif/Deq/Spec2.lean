import Verif.Deq.Spec
/-!
# Specifications of the deque operations, continued
-/
namespace CC.Deq
open CC CC.Tac
open CC.Vec (nullP freeStorage buf buf_zero buf_ne arg arg_null arg_cell psub_spec psub_spec' pminus_spec pminus_spec' freeStorage_spec
  CanCopy live_snoc raws_pos newCap)
variable {V W β α : Type} {nf : Prop} {T : Nat → Ops V} {ty : Nat} {e : ElemSpec nf (T ty) W}
variable {v b lo n hi : Nat} {ws : List W} {R : HProp V}

theorem clear_nil : Triple nf (isDeq e v b lo hi []) (clear T v) (fun _ => isDeq e v b lo hi []) := by
  unfold clear
  call (lift (e := e) (empty_spec (v := v)))
  intro r
  xsub
  simp only [List.length_nil, decide_true, if_true]
  apply Triple.ret
  cancel

/-- clear destroys the elements and keeps the storage; the free space is then split in halves -/
theorem clear_spec (hw : ws ≠ []) : Triple nf (isDeq e v b lo hi ws) (clear T v)
    (fun _ => isDeq e v b ((lo + ws.length + hi) / 2) (lo + ws.length + hi - (lo + ws.length + hi) / 2) []) := by
  unfold isDeq clear
  call empty_spec
  intro r
  xsub
  rw [if_neg (by simpa using hw)]
  call ldTy
  intro r
  xsub
  call dbegin_spec
  intro r
  xsub
  call dend_spec
  intro r
  xsub
  call (destroyLoop_spec (e := e) (b := b) (i := 1 + lo) (ws := ws) rfl)
  intro _
  call eos_spec
  intro r
  xsub
  call sos_spec
  intro r
  xsub
  apply psub_spec (by omega)
  rw [show 1 + lo + ws.length + hi - 1 = lo + ws.length + hi by omega]
  call sos_spec
  intro r
  xsub
  generalize hC : lo + ws.length + hi = C
  generalize hl : C / 2 = lo'
  have hle : lo' ≤ C := by omega
  unfold dhdr
  steps
  apply Triple.ret
  have e0 : 1 + lo + ws.length + hi = 1 + C := by omega
  have e1 : lo' + (C - lo') = C := by omega
  have e2 : 1 + lo' + (C - lo') = 1 + C := by omega
  have e3 : (raws (V := V) b 1 lo' ∗ raws b (1 + lo') (C - lo')) = raws b 1 C := by rw [← raws_append, e1]
  have e4 : raws (V := V) b 1 C = (raws b 1 lo ∗ raws b (1 + lo) ws.length ∗ raws b (1 + lo + ws.length) hi) := by
    rw [← hC, Nat.add_assoc lo, raws_append, raws_append]
  simp only [List.length_nil, Nat.add_zero, padd, live_nil, sep_emp, emp_sep, e0, e1, e2]
  rw [e3, e4, hC]
  cancel

theorem erase_spec {X Y : List W} {w : W} :
    Triple nf (isDeq e v b lo hi (X ++ w :: Y)) (erase T v (b, 1 + lo + X.length))
      (fun r => ⌜r = (b, 1 + lo + X.length)⌝ ∗ isDeq e v b lo (hi + 1) (X ++ Y)) := by
  unfold isDeq
  apply hdr_fact; intro hv
  unfold erase
  rw [if_neg hv]
  call isValidPos_spec
  intro r
  xsub
  call ldFinish
  intro r
  xsub
  rw [if_neg (by simp)]
  call ldTy
  intro r
  xsub
  rw [live_append, live_cons]
  call (destroyCell_spec (e := e) (l := (b, 1 + lo + X.length)) (w := w))
  intro _
  call ldFinish
  intro r
  xsub
  simp only [padd]
  apply psub_spec (by simp; omega)
  have hn : 1 + lo + (X ++ w :: Y).length - (1 + lo + X.length + 1) = Y.length := by simp; omega
  rw [hn]
  have hr : (∃ₛ y, pts (V := V) (b, 1 + lo + X.length) y) = raws b (1 + lo + X.length) 1 := by simp [raws]
  rw [hr]
  call (memmove_down (e := e) (b := b) (i := 1 + lo + X.length) (k := 1) (ws := Y) rfl rfl)
  intro _
  call ldFinish
  intro r
  xsub
  apply pminus_spec (by simp; omega)
  call (stFinish (b := b) (lo := lo) (n := (X ++ w :: Y).length) (hi := hi) (n' := (X ++ Y).length) (hi' := hi + 1) (by simp; omega) (by simp; omega))
  intro _
  apply Triple.ret
  have h2 : 1 + lo + X.length + Y.length = 1 + lo + (X ++ Y).length := by simp; omega
  have h3 : 1 + lo + (X ++ w :: Y).length = 1 + lo + (X ++ Y).length + 1 := by simp; omega
  rw [Nat.add_comm hi 1, raws_append, live_append, h2, h3]
  cancel

/-- positions outside the deque, and end, are left alone -/
theorem erase_invalid {p : Loc} (hp : ¬ (p.1 = b ∧ 1 + lo ≤ p.2 ∧ p.2 < 1 + lo + ws.length)) :
    Triple nf (isDeq e v b lo hi ws) (erase T v p) (fun r => ⌜r = (b, 1 + lo + ws.length)⌝ ∗ isDeq e v b lo hi ws) := by
  apply deq_fact'; intro hv
  unfold erase
  rw [if_neg hv]
  call (lift (e := e) (isValidPos_spec (v := v)))
  intro r
  xsub
  call (lift (e := e) (ldFinish (v := v)))
  intro r
  xsub
  rw [if_pos ?_]
  · exact lift dend_spec
  · by_cases h : p = (b, 1 + lo + ws.length)
    · exact Or.inr h
    · left
      simp only [Bool.not_eq_true', decide_eq_false_iff_not]
      rintro ⟨h1, h2, h3⟩
      refine hp ⟨h1, h2, ?_⟩
      rcases Nat.lt_or_eq_of_le h3 with h4 | h4
      · exact h4
      · exact absurd (Prod.ext h1 h4) h

theorem eraseRange_spec {X Y Z : List W} :
    Triple nf (isDeq e v b lo hi (X ++ Y ++ Z)) (eraseRange T v (b, 1 + lo + X.length) (b, 1 + lo + X.length + Y.length))
      (fun r => ⌜r = (b, 1 + lo + X.length)⌝ ∗ isDeq e v b lo (hi + Y.length) (X ++ Z)) := by
  unfold isDeq
  apply hdr_fact; intro hv
  unfold eraseRange
  rw [if_neg hv]
  call isValidPos_spec
  intro r
  xsub
  call isValidPos_spec
  intro r
  xsub
  rw [if_neg (by
    rintro (h | h | ⟨h1, h2⟩)
    · simp at h <;> omega
    · simp at h <;> omega
    · simp [pge] at h1
      exact h2 (by rw [show 1 + lo + X.length + Y.length = 1 + lo + X.length by omega]))]
  by_cases hY : Y = []
  · subst hY
    rw [if_pos (by simp)]
    apply Triple.ret
    simp only [List.length_nil, Nat.add_zero, List.append_nil]
    cancel
  · have hY' : Y.length ≠ 0 := by simpa using hY
    rw [if_neg (by simp; simpa using hY)]
    call ldTy
    intro r
    xsub
    rw [live_append, live_append]
    call (destroyLoop_spec (e := e) (b := b) (i := 1 + lo + X.length) (ws := Y) rfl)
    intro _
    call ldFinish
    intro r
    xsub
    apply psub_spec (by simp; omega)
    have hn : 1 + lo + (X ++ Y ++ Z).length - (1 + lo + X.length + Y.length) = Z.length := by simp; omega
    have hl : 1 + lo + (X ++ Y).length = 1 + lo + X.length + Y.length := by simp; omega
    rw [hn, hl]
    call (memmove_down (e := e) (b := b) (i := 1 + lo + X.length) (k := Y.length) (ws := Z) rfl rfl)
    intro _
    apply psub_spec (by omega)
    call ldFinish
    intro r
    xsub
    apply pminus_spec (by simp; omega)
    call (stFinish (b := b) (lo := lo) (n := (X ++ Y ++ Z).length) (hi := hi) (n' := (X ++ Z).length) (hi' := hi + Y.length) (by simp; omega) (by simp; omega))
    intro _
    apply Triple.ret
    have h2 : 1 + lo + X.length + Z.length = 1 + lo + (X ++ Z).length := by simp; omega
    have h3 : 1 + lo + (X ++ Y ++ Z).length = 1 + lo + (X ++ Z).length + Y.length := by simp; omega
    rw [Nat.add_comm hi, raws_append, live_append, h2, h3]
    cancel

/-- a position and a range outside the deque, or a reversed range -/
theorem eraseRange_invalid {p q : Loc} (hp : ¬ (p.1 = b ∧ q.1 = b ∧ 1 + lo ≤ p.2 ∧ p.2 ≤ q.2 ∧ q.2 ≤ 1 + lo + ws.length)) :
    Triple nf (isDeq e v b lo hi ws) (eraseRange T v p q) (fun r => ⌜r = (b, 1 + lo + ws.length)⌝ ∗ isDeq e v b lo hi ws) := by
  apply deq_fact'; intro hv
  unfold eraseRange
  rw [if_neg hv]
  call (lift (e := e) (isValidPos_spec (v := v)))
  intro r
  xsub
  call (lift (e := e) (isValidPos_spec (v := v)))
  intro r
  xsub
  rw [if_pos ?_]
  · exact lift dend_spec
  · by_cases h1 : p.1 = b ∧ 1 + lo ≤ p.2 ∧ p.2 ≤ 1 + lo + ws.length
    · by_cases h2 : q.1 = b ∧ 1 + lo ≤ q.2 ∧ q.2 ≤ 1 + lo + ws.length
      · right; right
        have hlt : q.2 < p.2 := by
          rcases Nat.lt_or_ge q.2 p.2 with h | h
          · exact h
          · exact absurd ⟨h1.1, h2.1, h1.2.1, h, h2.2.2⟩ hp
        refine ⟨?_, ?_⟩
        · simp [pge, h1.1, h2.1]; omega
        · rintro rfl; omega
      · right; left; simp only [h2, decide_false, Bool.not_false]
    · left; simp only [h1, decide_false, Bool.not_false]

/-- making room for `count` more elements somewhere -/
theorem insertRoom_spec {count k : Nat} (hk : k ≤ ws.length) (hp : e.Plain ∨ ws = [] ∨ count ≤ lo + hi) :
    Triple nf (isDeq e v b lo hi ws) (insertRoom T v (b, 1 + lo + k) count)
      (fun r => match r with
        | none => ⌜¬ nf ∧ lo + hi < count⌝ ∗ isDeq e v b lo hi ws
        | some p => ∃ₛ b' lo' hi', ⌜p = (b', 1 + lo' + k) ∧ count ≤ lo' + hi' ∧ ((count ≤ lo + hi → b' = b ∧ lo' = lo ∧ hi' = hi) ∧
            (lo + hi < count → lo' + ws.length + hi' = newCap (lo + ws.length + hi) ((count - (lo + hi)) * 2) ws.length))⌝ ∗
            isDeq e v b' lo' hi' ws) := by
  unfold insertRoom
  call (lift (e := e) (available_spec (v := v)))
  intro r
  xsub
  by_cases h : lo + hi < count
  · rw [if_pos h]
    have hp' : e.Plain ∨ ws = [] := by
      rcases hp with h | h | h
      · exact Or.inl h
      · exact Or.inr h
      · omega
    call (lift (e := e) (ldStart (v := v)))
    intro r
    xsub
    apply psub_spec (by omega)
    rw [show 1 + lo + k - (1 + lo) = k by omega]
    call (lift (e := e) (available_spec (v := v)))
    intro r
    xsub
    call (realloc_spec (k := (count - (lo + hi)) * 2) hp')
    intro failed
    cases failed with
    | true =>
      simp only [if_true]
      xintro h'
      apply Triple.ret
      dsimp only
      cancel
    | false =>
      simp only [Bool.false_eq_true, if_false]
      xintro b' hb'
      generalize hN : newCap (lo + ws.length + hi) ((count - (lo + hi)) * 2) ws.length = N
      have hN2 : count + ws.length ≤ N := by rw [← hN]; unfold newCap; split <;> omega
      call (lift (e := e) (ldStart (v := v)))
      intro r
      xsub
      apply Triple.ret
      dsimp only
      xexists b', (N - ws.length) / 2, N - ws.length - (N - ws.length) / 2
      cancel
      exact ⟨rfl, by omega, by omega, fun _ => by omega⟩
  · rw [if_neg h]
    apply Triple.ret
    dsimp only
    xexists b, lo, hi
    cancel
    exact ⟨rfl, by omega, fun _ => ⟨rfl, rfl, rfl⟩, fun h' => absurd h' h⟩

/-- Outcome of adding `count` elements in a deque with `lo`, `hi` free slots: if they fit, the storage is kept; otherwise the allocation may fail
and nothing happens. -/
def Res (nf : Prop) (count b lo hi : Nat) (ws ws1 : List W) (b' lo' hi' : Nat) (ws' : List W) : Prop :=
  (ws' = ws1 ∧ (count ≤ lo + hi → b' = b ∧ lo' + count + hi' = lo + hi)) ∨
  (¬ nf ∧ lo + hi < count ∧ ws' = ws ∧ b' = b ∧ lo' = lo ∧ hi' = hi)

/-- The free slots after adding `count` elements: if they fit, neither end has lost more than `count` of them, and only one of them has lost any if it had enough; otherwise the storage has been doubled, or enlarged to `extra` more
than the old contents; or the allocation failed. -/
def Room (nf : Prop) (count extra lo hi : Nat) (ws : List W) (lo' hi' : Nat) (ws' : List W) : Prop :=
  (count ≤ lo + hi → lo ≤ lo' + count ∧ hi ≤ hi' + count ∧ (count ≤ hi → lo' = lo) ∧ (hi < count → count ≤ lo → hi' = hi)) ∧
  (lo + hi < count → (lo' = lo ∧ hi' = hi ∧ ws' = ws ∧ ¬ nf) ∨ lo' + ws'.length + hi' = newCap (lo + ws.length + hi) extra ws.length)

theorem insertN_full {X Y : List W} {count : Nat} {value : Loc} {w : W} (hv0 : value.1 ≠ 0)
    (hp : e.Plain ∨ X ++ Y = [] ∨ count ≤ lo + hi) :
    Triple nf (isDeq e v b lo hi (X ++ Y) ∗ cell e value w) (insertN T v (b, 1 + lo + X.length) count value)
      (fun r => ∃ₛ b' lo' hi' ws', ⌜Res nf count b lo hi (X ++ Y) (X ++ List.replicate count w ++ Y) b' lo' hi' ws' ∧
          (ws' = X ++ List.replicate count w ++ Y ∧ r = (b', 1 + lo' + X.length) ∨ ¬ nf ∧ lo + hi < count ∧ ws' = X ++ Y ∧ r = (b', 1 + lo' + (X ++ Y).length)) ∧
          Room nf count ((count - (lo + hi)) * 2) lo hi (X ++ Y) lo' hi' ws'⌝ ∗
        isDeq e v b' lo' hi' ws' ∗ cell e value w) := by
  apply deq_fact; intro hv
  unfold insertN
  rw [if_neg (by simp [hv, hv0])]
  call (lift (e := e) (isValidPos_spec (v := v)))
  intro r
  xsub
  rw [if_neg (by simp <;> omega)]
  call (insertRoom_spec (e := e) (v := v) (b := b) (lo := lo) (hi := hi) (ws := X ++ Y) (count := count) (k := X.length) (by simp) hp)
  intro r
  cases r with
  | none =>
    dsimp only
    xintro h
    call (lift (e := e) (dend_spec (v := v)))
    intro r
    xsub
    xexists b, lo, hi, X ++ Y
    cancel
    exact ⟨Or.inr ⟨h.1, h.2, rfl, rfl, rfl, rfl⟩, Or.inr ⟨h.1, h.2, rfl, rfl⟩, fun h' => by omega, fun _ => Or.inl ⟨rfl, rfl, rfl, h.1⟩⟩
  | some p =>
    dsimp only
    xintro b' lo' hi' h
    obtain ⟨rfl, h1, h2, h2'⟩ := h
    have := insertAux_full (e := e) (v := v) (b := b') (lo := lo') (hi := hi') (X := X) (Y := Y) (n := count) (value := value) (w := w) h1
    rw [arg_cell hv0] at this
    refine Triple.post this ?_
    intro r
    xintro lo'' hi'' h3
    obtain ⟨h3, h3', rfl⟩ := h3
    xexists b', lo'', hi'', X ++ List.replicate count w ++ Y
    cancel
    refine ⟨Or.inl ⟨rfl, fun hc => ?_⟩, Or.inl ⟨rfl, rfl⟩, fun hc => ?_, fun hc => Or.inr ?_⟩
    · obtain ⟨rfl, rfl, rfl⟩ := h2 hc
      exact ⟨rfl, h3⟩
    · obtain ⟨rfl, rfl, rfl⟩ := h2 hc
      omega
    · rw [← h2' hc]
      simp only [List.length_append, List.length_replicate]
      omega

theorem insertN_spec {X Y : List W} {count : Nat} {value : Loc} {w : W} (hv0 : value.1 ≠ 0)
    (hp : e.Plain ∨ X ++ Y = [] ∨ count ≤ lo + hi) :
    Triple nf (isDeq e v b lo hi (X ++ Y) ∗ cell e value w) (insertN T v (b, 1 + lo + X.length) count value)
      (fun r => ∃ₛ b' lo' hi' ws', ⌜Res nf count b lo hi (X ++ Y) (X ++ List.replicate count w ++ Y) b' lo' hi' ws' ∧
          (ws' = X ++ List.replicate count w ++ Y ∧ r = (b', 1 + lo' + X.length) ∨ ¬ nf ∧ lo + hi < count ∧ ws' = X ++ Y ∧ r = (b', 1 + lo' + (X ++ Y).length))⌝ ∗
        isDeq e v b' lo' hi' ws' ∗ cell e value w) := by
  refine Triple.post (insertN_full hv0 hp) ?_
  intro r
  xintro b' lo' hi' ws' h
  xexists b', lo', hi', ws'
  cancel
  exact ⟨h.1, h.2.1⟩

theorem insertN_invalid {count : Nat} {p value : Loc} (hv0 : value.1 ≠ 0) (hp : ¬ (p.1 = b ∧ 1 + lo ≤ p.2 ∧ p.2 ≤ 1 + lo + ws.length)) :
    Triple nf (isDeq e v b lo hi ws) (insertN T v p count value) (fun r => ⌜r = (b, 1 + lo + ws.length)⌝ ∗ isDeq e v b lo hi ws) := by
  apply deq_fact'; intro hv
  unfold insertN
  rw [if_neg (by simp [hv, hv0])]
  call (lift (e := e) (isValidPos_spec (v := v)))
  intro r
  xsub
  rw [if_pos (by simp only [hp, decide_false, Bool.not_false])]
  exact lift dend_spec

/-- growing resize -/
theorem resize_grow_full {count : Nat} {value : Loc} {w : W} (hlt : ws.length < count) (hp : e.Plain ∨ ws = [] ∨ count - ws.length ≤ lo + hi) :
    Triple nf (isDeq e v b lo hi ws ∗ arg e value w) (resizeWithValue T v count value)
      (fun _ => ∃ₛ b' lo' hi' ws', ⌜Res nf (count - ws.length) b lo hi ws (ws ++ List.replicate (count - ws.length) w) b' lo' hi' ws' ∧
          (lo + hi < count - ws.length → ws' ≠ ws → lo' + hi' + count = newCap (lo + ws.length + hi) ((count - ws.length) * 2) ws.length) ∧
          Room nf (count - ws.length) ((count - ws.length) * 2) lo hi ws lo' hi' ws'⌝ ∗
        isDeq e v b' lo' hi' ws' ∗ arg e value w) := by
  apply deq_fact; intro hv
  unfold resizeWithValue
  rw [if_neg hv]
  call (lift (e := e) (size_spec (v := v)))
  intro r
  xsub
  rw [if_pos hlt]
  call (lift (e := e) (size_spec (v := v)))
  intro r
  xsub
  call (lift (e := e) (available_spec (v := v)))
  intro r
  xsub
  generalize hk : count - ws.length = k at *
  have htail : ∀ b' lo' hi', k ≤ lo' + hi' → Triple nf (isDeq e v b' lo' hi' ws ∗ arg e value w) (do
      let e ← dend v
      let _ ← insertAux T v e k value
      pure ())
      (fun _ => ∃ₛ lo'' hi'', ⌜lo'' + k + hi'' = lo' + hi' ∧ (k ≤ hi' → lo'' = lo') ∧ lo'' ≤ lo' ∧ hi'' ≤ hi' ∧ (hi' < k → k ≤ lo' → hi'' = hi')⌝ ∗ isDeq e v b' lo'' hi'' (ws ++ List.replicate k w) ∗ arg e value w) := by
    intro b' lo' hi' h
    call (lift (e := e) (dend_spec (v := v)))
    intro r
    xsub
    have := insertAux_full (e := e) (v := v) (b := b') (lo := lo') (hi := hi') (X := ws) (Y := []) (n := k) (value := value) (w := w) h
    simp only [List.append_nil] at this
    call this
    intro r
    xintro lo'' hi'' h'
    apply Triple.ret
    xexists lo'', hi''
    cancel
    exact ⟨h'.1, h'.2.1⟩
  by_cases hfull : lo + hi < k
  · rw [if_pos hfull]
    have hp' : e.Plain ∨ ws = [] := by
      rcases hp with h | h | h
      · exact Or.inl h
      · exact Or.inr h
      · omega
    call (realloc_spec (k := k * 2) hp')
    intro failed
    cases failed with
    | true =>
      simp only [if_true]
      xintro h
      apply Triple.ret
      xexists b, lo, hi, ws
      cancel
      exact ⟨Or.inr ⟨h, hfull, rfl, rfl, rfl, rfl⟩, fun _ h => absurd rfl h, fun h' => by omega, fun _ => Or.inl ⟨rfl, rfl, rfl, h⟩⟩
    | false =>
      simp only [Bool.false_eq_true, if_false]
      xintro b' hb'
      generalize hN : newCap (lo + ws.length + hi) (k * 2) ws.length = N
      have hN2 : k + ws.length ≤ N := by rw [← hN]; unfold newCap; split <;> omega
      refine Triple.post (htail b' ((N - ws.length) / 2) (N - ws.length - (N - ws.length) / 2) (by omega)) ?_
      intro _
      xintro lo'' hi'' h
      xexists b', lo'', hi'', ws ++ List.replicate k w
      cancel
      exact ⟨Or.inl ⟨rfl, fun h => by omega⟩, fun _ _ => by omega, fun h' => by omega, fun _ => Or.inr (by rw [hN]; simp only [List.length_append, List.length_replicate]; omega)⟩
  · rw [if_neg hfull]
    step
    rw [if_neg (by simp)]
    refine Triple.post (htail b lo hi (by omega)) ?_
    intro _
    xintro lo'' hi'' h
    xexists b, lo'', hi'', ws ++ List.replicate k w
    cancel
    exact ⟨Or.inl ⟨rfl, fun _ => ⟨rfl, h.1⟩⟩, fun h => absurd h hfull, fun _ => by omega, fun h => absurd h hfull⟩

theorem resize_grow {count : Nat} {value : Loc} {w : W} (hlt : ws.length < count) (hp : e.Plain ∨ ws = [] ∨ count - ws.length ≤ lo + hi) :
    Triple nf (isDeq e v b lo hi ws ∗ arg e value w) (resizeWithValue T v count value)
      (fun _ => ∃ₛ b' lo' hi' ws', ⌜Res nf (count - ws.length) b lo hi ws (ws ++ List.replicate (count - ws.length) w) b' lo' hi' ws' ∧
          (lo + hi < count - ws.length → ws' ≠ ws → lo' + hi' + count = newCap (lo + ws.length + hi) ((count - ws.length) * 2) ws.length)⌝ ∗
        isDeq e v b' lo' hi' ws' ∗ arg e value w) := by
  refine Triple.post (resize_grow_full hlt hp) ?_
  intro _
  xintro b' lo' hi' ws' h
  xexists b', lo', hi', ws'
  cancel
  exact ⟨h.1, h.2.1⟩

/-- shrinking resize -/
theorem resize_shrink {X Y : List W} {value : Loc} :
    Triple nf (isDeq e v b lo hi (X ++ Y)) (resizeWithValue T v X.length value) (fun _ => isDeq e v b lo (hi + Y.length) X) := by
  unfold isDeq
  apply hdr_fact; intro hv
  unfold resizeWithValue
  rw [if_neg hv]
  call size_spec
  intro r
  xsub
  rw [if_neg (by simp)]
  call ldStart
  intro r
  xsub
  call ldTy
  intro r
  xsub
  call dend_spec
  intro r
  xsub
  rw [live_append]
  simp only [padd]
  call (destroyLoop_spec (e := e) (b := b) (i := 1 + lo + X.length) (j := 1 + lo + (X ++ Y).length) (ws := Y) (by simp; omega))
  intro _
  call (stFinish (b := b) (lo := lo) (n := (X ++ Y).length) (hi := hi) (n' := X.length) (hi' := hi + Y.length) rfl (by simp; omega))
  intro _
  have h3 : 1 + lo + (X ++ Y).length = 1 + lo + X.length + Y.length := by simp; omega
  rw [Nat.add_comm hi, raws_append, h3]
  cancel

theorem freeAll {hi : Nat} :
    Triple nf (buf b (lo + n + hi) ∗ raws (V := V) b 1 lo ∗ raws b (1 + lo) n ∗ raws b (1 + lo + n) hi) (freeStorage (b, 1)) (fun _ => emp) := by
  have h := freeStorage_spec (V := V) (nf := nf) (b := b) (cap := lo + n + hi)
  rw [Nat.add_assoc lo, raws_append, raws_append] at h
  rw [Nat.add_assoc lo]
  exact h

/-- shrink_to_fit: no free slots remain (unless the allocation failed) -/
theorem shrinkToFit_spec (hp : e.Plain ∨ ws = [] ∨ (lo = 0 ∧ hi = 0)) :
    Triple nf (isDeq e v b lo hi ws) (shrinkToFit T v)
      (fun _ => ∃ₛ b' lo' hi', ⌜lo' = 0 ∧ hi' = 0 ∨ (¬ nf ∧ b' = b ∧ lo' = lo ∧ hi' = hi)⌝ ∗ isDeq e v b' lo' hi' ws) := by
  unfold isDeq
  apply hdr_fact; intro hv
  unfold shrinkToFit
  rw [if_neg hv]
  call eos_spec
  intro r
  xsub
  call end_spec
  intro r
  xsub
  call sos_spec
  intro r
  xsub
  call begin_spec
  intro r
  xsub
  by_cases hfit : lo = 0 ∧ hi = 0
  · rw [if_pos (by simp [hfit])]
    apply Triple.ret
    xexists b, lo, hi
    cancel
    exact Or.inl hfit
  · rw [if_neg (by simp; omega)]
    have hp' : e.Plain ∨ ws = [] := by
      rcases hp with h | h | h
      · exact Or.inl h
      · exact Or.inr h
      · omega
    call ldFinish
    intro r
    xsub
    call ldStart
    intro r
    xsub
    apply psub_spec (by omega)
    rw [show 1 + lo + ws.length - (1 + lo) = ws.length by omega]
    by_cases hw : ws = []
    · subst hw
      rw [List.length_nil, if_pos rfl, ← List.length_nil (α := W)]
      call ldSos
      intro r
      xsub
      unfold dhdr
      have hf := freeAll (V := V) (nf := nf) (b := b) (lo := lo) (n := 0) (hi := hi)
      rw [raws_zero] at hf
      simp only [List.length_nil, live_nil]
      call hf
      intro _
      steps
      apply Triple.ret
      xexists 0, 0, 0
      rw [buf_zero]
      simp only [raws_zero, Nat.add_zero]
      cancel
      exact Or.inl ⟨trivial, trivial⟩
    · rw [if_neg (by simpa using hw)]
      apply mallocO_spec
      · intro h
        rw [if_pos rfl]
        apply Triple.ret
        xexists b, lo, hi
        cancel
        exact Or.inr ⟨h, rfl, rfl, rfl⟩
      intro a ha
      rw [if_neg ha]
      call (memcpy_plain (e := e) (b := b) (i := 1 + lo) (c := a) (j := 1) (n := ws.length) (ws := ws) rfl hp')
      intro _
      call ldTy
      intro r
      xsub
      call dbegin_spec
      intro r
      xsub
      call dend_spec
      intro r
      xsub
      call (destroyLoop_spec (e := e) (b := b) (i := 1 + lo) (ws := ws) rfl)
      intro _
      call ldSos
      intro r
      xsub
      unfold dhdr
      call (freeAll (V := V) (nf := nf) (b := b) (lo := lo) (n := ws.length) (hi := hi))
      intro _
      steps
      apply Triple.ret
      xexists a, 0, 0
      rw [buf_ne ha]
      simp only [raws_zero, Nat.add_zero, Nat.zero_add, padd]
      cancel
      exact Or.inl ⟨trivial, trivial⟩

theorem destroy_spec : Triple nf (isDeq e v b lo hi ws) (destroy T v) (fun _ => emp) := by
  apply deq_fact'; intro hv
  unfold destroy
  rw [if_neg hv]
  have hclear : Triple nf (isDeq e v b lo hi ws) (clear T v) (fun _ => ∃ₛ lo' hi', isDeq e v b lo' hi' []) := by
    by_cases hw : ws = []
    · subst hw
      refine Triple.post clear_nil ?_
      intro _
      xexists lo, hi
      cancel
    · refine Triple.post (clear_spec hw) ?_
      intro _
      xexists _, _
      rw [sep_emp]
      exact ent_refl _
  refine Triple.bind hclear ?_
  intro _
  xintro lo' hi'
  unfold isDeq
  simp only [List.length_nil, live_nil]
  call ldSos
  intro r
  xsub
  unfold dhdr
  have hf := freeAll (V := V) (nf := nf) (b := b) (lo := lo') (n := 0) (hi := hi')
  rw [raws_zero] at hf
  call hf
  intro _
  steps
  call free5
  intro _
  cancel

theorem create_spec (hty : ty ≠ 0) :
    Triple nf emp (create (V := V) ty) (fun r => ⌜r = 0 → ¬ nf⌝ ∗ if r = 0 then emp else isDeq e r 0 0 0 []) := by
  unfold create
  rw [if_neg hty]
  apply mallocS5
  · intro h
    rw [if_pos rfl]
    apply Triple.ret
    rw [if_pos rfl]
    cancel
    exact fun _ => h
  intro a x y z w u ha
  rw [if_neg ha]
  steps
  apply Triple.ret
  rw [if_neg ha]
  unfold isDeq dhdr
  rw [buf_zero]
  simp only [List.length_nil, live_nil, raws_zero, Nat.add_zero]
  cancel
  exact fun h => absurd h ha

/-- swap exchanges the contents and the storage -/
theorem swap_spec {ty2 : Nat} {e2 : ElemSpec nf (T ty2) W} {v2 b2 lo2 hi2 : Nat} {ws2 : List W} :
    Triple nf (isDeq e v b lo hi ws ∗ isDeq e2 v2 b2 lo2 hi2 ws2) (swap v v2)
      (fun _ => isDeq e2 v b2 lo2 hi2 ws2 ∗ isDeq e v2 b lo hi ws) := by
  apply deq_fact; intro hv
  rw [sep_comm]
  apply deq_fact; intro hv2
  unfold swap
  rw [if_neg (by simp [hv, hv2])]
  unfold isDeq dhdr
  steps
  apply Triple.ret
  cancel

end CC.Deq
