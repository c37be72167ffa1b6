import Verif.Vec.Spec2
/-!
# Specifications of the vector operations: erase, clear, resize, insert, shrink
-/
namespace CC.Vec
open CC CC.Tac
variable {V W β α : Type} {nf : Prop} {T : Nat → Ops V} {ty : Nat} {e : ElemSpec nf (T ty) W}
variable {v b n cap : Nat} {ws : List W} {R : HProp V}

theorem vec_facts {P : HProp V} {m : M V α} {Q : α → HProp V}
    (h : v ≠ 0 → ws.length ≤ cap → Triple nf (isVec e v b cap ws ∗ P) m Q) : Triple nf (isVec e v b cap ws ∗ P) m Q := by
  refine Triple.fact (p := v ≠ 0 ∧ ws.length ≤ cap) ?_ fun hh => h hh.1 hh.2
  intro h hh
  unfold isVec at hh
  rw [sep_assoc] at hh
  refine ⟨hdr_ne hh, ?_⟩
  have he : (vhdr (V := V) v b ws.length cap ty ∗ (⌜ws.length ≤ cap⌝ ∗ live e b 1 ws ∗ raws b (1 + ws.length) (cap - ws.length)) ∗ P) ⊢ₛ
      ⌜ws.length ≤ cap⌝ ∗ (vhdr v b ws.length cap ty ∗ live e b 1 ws ∗ raws b (1 + ws.length) (cap - ws.length) ∗ P) := by cancel
  exact (hpure_sep_apply.1 (he _ hh)).1

theorem vec_facts' {m : M V α} {Q : α → HProp V}
    (h : v ≠ 0 → ws.length ≤ cap → Triple nf (isVec e v b cap ws) m Q) : Triple nf (isVec e v b cap ws) m Q := by
  rw [← sep_emp (isVec e v b cap ws)] at h ⊢
  exact vec_facts h

theorem clear_spec : Triple nf (isVec e v b cap ws) (clear T v) (fun _ => isVec e v b cap []) := by
  unfold isVec
  apply hdr_fact; intro hv
  xintro hcap
  unfold clear
  call empty_spec
  intro r
  xsub
  by_cases hw : ws = []
  · subst hw
    simp only [List.length_nil, decide_true, if_true]
    apply Triple.ret
    cancel
  · rw [if_neg (by simpa using hw)]
    call ldTy
    intro r
    xsub
    call begin_spec
    intro r
    xsub
    call end_spec
    intro r
    xsub
    call (destroyLoop_spec (e := e) (b := b) (i := 1) (ws := ws) rfl)
    intro _
    call ldStart
    intro r
    xsub
    call (stFinish (b := b) (m := 0) rfl)
    intro _
    have h1 : raws (V := V) b 1 cap = (raws b 1 ws.length ∗ raws b (1 + ws.length) (cap - ws.length)) := by
      rw [← raws_append]; congr 1; omega
    simp only [List.length_nil, live_nil, Nat.add_zero, Nat.sub_zero, h1]
    cancel
    omega

/-- erase of the element behind `X`: returns the same position -/
theorem erase_spec {X Y : List W} {w : W} :
    Triple nf (isVec e v b cap (X ++ w :: Y)) (erase T v (b, 1 + X.length))
      (fun r => ⌜r = (b, 1 + X.length)⌝ ∗ isVec e v b cap (X ++ Y)) := by
  unfold isVec
  apply hdr_fact; intro hv
  xintro hcap
  unfold erase
  rw [if_neg hv]
  call isValidPos_spec
  intro r
  xsub
  call ldFinish
  intro r
  xsub
  rw [if_neg (by simp)]
  call ldTy
  intro r
  xsub
  rw [live_append, live_cons]
  call (destroyCell_spec (e := e) (l := (b, 1 + X.length)) (w := w))
  intro _
  call ldFinish
  intro r
  xsub
  simp only [padd]
  apply psub_spec (by simp; omega)
  have hn : 1 + (X ++ w :: Y).length - (1 + X.length + 1) = Y.length := by simp; omega
  rw [hn]
  have hr : (∃ₛ y, pts (V := V) (b, 1 + X.length) y) = raws b (1 + X.length) 1 := by simp [raws]
  rw [hr]
  call (memmove_down (e := e) (b := b) (i := 1 + X.length) (k := 1) (ws := Y) rfl rfl)
  intro _
  call ldFinish
  intro r
  xsub
  apply pminus_spec (by simp; omega)
  call (stFinish (b := b) (m := (X ++ Y).length) (by simp; omega))
  intro _
  apply Triple.ret
  have h1 : cap - (X ++ Y).length = 1 + (cap - (X ++ w :: Y).length) := by simp at hcap ⊢; omega
  have h2 : 1 + X.length + Y.length = 1 + (X ++ Y).length := by simp; omega
  have h3 : 1 + (X ++ w :: Y).length = 1 + (X ++ Y).length + 1 := by simp; omega
  rw [h1, raws_append, live_append, h2, h3]
  cancel
  simp at hcap ⊢; omega

/-- positions outside the vector, and end, are left alone -/
theorem erase_invalid {p : Loc} (hp : ¬ (p.1 = b ∧ 1 ≤ p.2 ∧ p.2 < 1 + ws.length)) :
    Triple nf (isVec e v b cap ws) (erase T v p) (fun r => ⌜r = (b, 1 + ws.length)⌝ ∗ isVec e v b cap ws) := by
  unfold isVec
  apply hdr_fact; intro hv
  xintro hcap
  unfold erase
  rw [if_neg hv]
  call isValidPos_spec
  intro r
  xsub
  call ldFinish
  intro r
  xsub
  rw [if_pos ?_]
  · call vend_spec
    intro r
    xsub
    cancel
  · by_cases h : p = (b, 1 + ws.length)
    · exact Or.inr h
    · left
      simp only [Bool.not_eq_true', decide_eq_false_iff_not]
      rintro ⟨h1, h2, h3⟩
      refine hp ⟨h1, h2, ?_⟩
      rcases Nat.lt_or_eq_of_le h3 with h4 | h4
      · exact h4
      · exact absurd (Prod.ext h1 h4) h

theorem eraseRange_spec {X Y Z : List W} :
    Triple nf (isVec e v b cap (X ++ Y ++ Z)) (eraseRange T v (b, 1 + X.length) (b, 1 + X.length + Y.length))
      (fun r => ⌜r = (b, 1 + X.length)⌝ ∗ isVec e v b cap (X ++ Z)) := by
  unfold isVec
  apply hdr_fact; intro hv
  xintro hcap
  unfold eraseRange
  rw [if_neg hv]
  call isValidPos_spec
  intro r
  xsub
  call isValidPos_spec
  intro r
  xsub
  rw [if_neg (by
    rintro (h | h | ⟨h1, h2⟩)
    · simp at h
    · simp at h; omega
    · simp [pge] at h1
      exact h2 (by rw [show 1 + X.length + Y.length = 1 + X.length by omega]))]
  by_cases hY : Y = []
  · subst hY
    rw [if_pos (by simp)]
    apply Triple.ret
    simp only [List.length_nil, Nat.add_zero, List.append_nil]
    cancel
    simpa using hcap
  · have hY' : Y.length ≠ 0 := by simpa using hY
    rw [if_neg (by simp; simpa using hY)]
    call ldTy
    intro r
    xsub
    rw [live_append, live_append]
    call (destroyLoop_spec (e := e) (b := b) (i := 1 + X.length) (ws := Y) rfl)
    intro _
    call ldFinish
    intro r
    xsub
    apply psub_spec (by simp; omega)
    have hn : 1 + (X ++ Y ++ Z).length - (1 + X.length + Y.length) = Z.length := by simp; omega
    have hl : 1 + (X ++ Y).length = 1 + X.length + Y.length := by simp; omega
    rw [hn, hl]
    call (memmove_down (e := e) (b := b) (i := 1 + X.length) (k := Y.length) (ws := Z) rfl rfl)
    intro _
    apply psub_spec (by omega)
    call ldFinish
    intro r
    xsub
    apply pminus_spec (by simp; omega)
    call (stFinish (b := b) (m := (X ++ Z).length) (by simp; omega))
    intro _
    apply Triple.ret
    have h1 : cap - (X ++ Z).length = Y.length + (cap - (X ++ Y ++ Z).length) := by simp at hcap ⊢; omega
    have h2 : 1 + X.length + Z.length = 1 + (X ++ Z).length := by simp; omega
    have h3 : 1 + (X ++ Y ++ Z).length = 1 + (X ++ Z).length + Y.length := by simp; omega
    rw [h1, raws_append, live_append, h2, h3]
    cancel
    simp at hcap ⊢; omega

/-- the state after the reallocation step of resize / insert -/
theorem resizeWithValue_spec {count : Nat} {value : Loc} {w : W} (hp : e.Plain ∨ ws = [] ∨ count ≤ cap) :
    Triple nf (isVec e v b cap ws ∗ arg e value w) (resizeWithValue T v count value)
      (fun _ => ∃ₛ b' cap' ws', ⌜Res nf (cap < count) b cap ws (if cap < count then newCap cap (count - ws.length) ws.length else cap)
          (ws.take count ++ List.replicate (count - ws.length) w) b' cap' ws'⌝ ∗ isVec e v b' cap' ws' ∗ arg e value w) := by
  apply vec_facts; intro hv hcap
  unfold resizeWithValue
  rw [if_neg hv]
  have hsize : ∀ {b cap}, Triple nf (isVec e v b cap ws) (size v) (fun r => ⌜r = ws.length⌝ ∗ isVec e v b cap ws) := by
    intro b cap; unfold isVec; xintro h; call size_spec; intro r; xsub; cancel
  call hsize
  intro r
  xsub
  by_cases hlt : ws.length < count
  · rw [if_pos hlt]
    call hsize
    intro r
    xsub
    have hav : Triple nf (isVec e v b cap ws) (available v) (fun r => ⌜r = cap - ws.length⌝ ∗ isVec e v b cap ws) := by
      unfold isVec; xintro h; call (available_spec h); intro r; xsub; cancel
    call hav
    intro r
    xsub
    have htail : ∀ b' cap', count ≤ cap' → Triple nf (isVec e v b' cap' ws ∗ arg e value w) (do
        let e ← end_ v
        let ty ← ldN (v, 4)
        fill (T ty) e (count - ws.length) value
        let f ← ldP (v, 2)
        stP (v, 2) (padd f (count - ws.length)))
        (fun _ => isVec e v b' cap' (ws ++ List.replicate (count - ws.length) w) ∗ arg e value w) := by
      intro b' cap' hc'
      unfold isVec
      xintro h
      call end_spec
      intro r
      xsub
      call ldTy
      intro r
      xsub
      rw [show cap' - ws.length = (count - ws.length) + (cap' - count) by omega, raws_append]
      call (fill_spec (e := e) (b := b') (i := 1 + ws.length) (n := count - ws.length) (value := value) (w := w))
      intro _
      call ldFinish
      intro r
      xsub
      call (stFinish (b := b') (m := (ws ++ List.replicate (count - ws.length) w).length) (by simp [padd]; omega))
      intro _
      have h1 : (ws ++ List.replicate (count - ws.length) w).length = count := by simp; omega
      rw [live_append, h1]
      have h2 : 1 + ws.length + (count - ws.length) = 1 + count := by omega
      rw [h2]
      cancel
    have htake : ws.take count = ws := List.take_of_length_le (by omega)
    rw [htake]
    by_cases hfull : cap - ws.length < count - ws.length
    · rw [if_pos hfull]
      have hfull' : cap < count := by omega
      have hp' : e.Plain ∨ ws = [] := by
        rcases hp with h | h | h
        · exact Or.inl h
        · exact Or.inr h
        · omega
      call (realloc_spec (k := count - ws.length) hp')
      intro failed
      cases failed with
      | true =>
        simp only [if_true]
        xintro h
        apply Triple.ret
        xexists b, cap, ws
        cancel
        exact Or.inr ⟨h, hfull', rfl, rfl, rfl⟩
      | false =>
        simp only [Bool.false_eq_true, if_false]
        xintro b' hb'
        have hN : count ≤ newCap cap (count - ws.length) ws.length := by unfold newCap; split <;> omega
        refine Triple.post (htail b' _ hN) ?_
        intro _
        xexists b', newCap cap (count - ws.length) ws.length, ws ++ List.replicate (count - ws.length) w
        cancel
        refine Or.inl ⟨rfl, ?_, fun h => absurd hfull' h⟩
        rw [if_pos hfull']
    · rw [if_neg hfull]
      have hfull' : ¬ cap < count := by omega
      step
      rw [if_neg (by simp)]
      refine Triple.post (htail b cap (by omega)) ?_
      intro _
      xexists b, cap, ws ++ List.replicate (count - ws.length) w
      cancel
      refine Or.inl ⟨rfl, ?_, fun _ => rfl⟩
      rw [if_neg hfull']
  · rw [if_neg hlt]
    obtain ⟨X, Y, rfl, rfl⟩ : ∃ X Y, ws = X ++ Y ∧ X.length = count :=
      ⟨ws.take count, ws.drop count, by simp, by simp; omega⟩
    unfold isVec
    xintro h
    call ldStart
    intro r
    xsub
    call ldTy
    intro r
    xsub
    call end_spec
    intro r
    xsub
    simp only [padd]
    rw [live_append]
    call (destroyLoop_spec (e := e) (b := b) (i := 1 + X.length) (ws := Y) (by simp; omega))
    intro _
    call (stFinish (b := b) (m := X.length) rfl)
    intro _
    xexists b, cap, X
    have h1 : cap - X.length = Y.length + (cap - (X ++ Y).length) := by simp at hcap ⊢; omega
    have h2 : 1 + (X ++ Y).length = 1 + X.length + Y.length := by simp; omega
    rw [h1, raws_append, h2]
    cancel
    · simp at hcap; omega
    · refine Or.inl ⟨?_, ?_, fun _ => rfl⟩
      · simp
      · rw [if_neg]; simp at hcap; omega

theorem resize_spec {count : Nat} (hp : e.Plain ∨ ws = [] ∨ count ≤ cap) :
    Triple nf (isVec e v b cap ws) (resize T v count)
      (fun _ => ∃ₛ b' cap' ws', ⌜Res nf (cap < count) b cap ws (if cap < count then newCap cap (count - ws.length) ws.length else cap)
          (ws.take count ++ List.replicate (count - ws.length) e.dflt) b' cap' ws'⌝ ∗ isVec e v b' cap' ws') := by
  unfold resize
  refine Triple.conseq (resizeWithValue_spec (b := b) (value := (0, 0)) (w := e.dflt) hp) ?_ ?_
  · rw [arg_null rfl]
    cancel
  · intro _
    rw [arg_null rfl]
    xintro b' cap' ws' h _
    xexists b', cap', ws'
    cancel

/-- reserve is a resize (finding: it changes the size) -/
theorem reserve_spec {k : Nat} (hp : e.Plain ∨ ws = []) :
    Triple nf (isVec e v b cap ws) (reserve T v k)
      (fun _ => ∃ₛ b' cap' ws', ⌜Res nf (cap < k) b cap ws (if cap < k then newCap cap (k - ws.length) ws.length else cap)
          (if cap < k then ws ++ List.replicate (k - ws.length) e.dflt else ws) b' cap' ws'⌝ ∗ isVec e v b' cap' ws') := by
  apply vec_facts'; intro hv hcap
  unfold reserve
  rw [if_neg hv]
  have hc : Triple nf (isVec e v b cap ws) (capacity v) (fun r => ⌜r = cap⌝ ∗ isVec e v b cap ws) := by
    unfold isVec; xintro h; call capacity_spec; intro r; xsub; cancel
  call hc
  intro r
  xsub
  by_cases hk : k ≤ cap
  · rw [if_pos hk]
    apply Triple.ret
    xexists b, cap, ws
    cancel
    refine Or.inl ⟨?_, ?_, fun _ => rfl⟩ <;> rw [if_neg (by omega)]
  · rw [if_neg hk]
    refine Triple.post (resize_spec (hp.imp id Or.inl)) ?_
    intro _
    xintro b' cap' ws' h
    xexists b', cap', ws'
    rw [List.take_of_length_le (by omega)] at h
    cancel
    have h2 : cap < k := by omega
    rw [if_pos h2] at h ⊢
    rw [if_pos h2]
    exact h

theorem create_spec {P : HProp V} {Q : β → HProp V} {k : Addr → M V β} (hty : ty ≠ 0) (hfail : ¬ nf → Triple nf P (k 0) Q)
    (hok : ∀ v, v ≠ 0 → Triple nf (isVec e v 0 0 [] ∗ P) (k v) Q) : Triple nf P (create ty >>= k) Q := by
  unfold create
  rw [if_neg hty, bind_assoc]
  apply mallocS4
  · intro h
    rw [if_pos rfl]
    step
    exact hfail h
  intro a x y z w ha
  rw [if_neg ha]
  steps
  refine Triple.pre ?_ (hok a ha)
  unfold isVec vhdr
  rw [buf_zero]
  simp only [List.length_nil, live_nil, Nat.sub_zero, Nat.add_zero, raws_zero]
  cancel

theorem destroy_spec : Triple nf (isVec e v b cap ws) (destroy T v) (fun _ => emp) := by
  apply vec_facts'; intro hv hcap
  unfold destroy
  rw [if_neg hv]
  call clear_spec
  intro _
  unfold isVec
  xintro h
  call ldStart
  intro r
  xsub
  unfold vhdr
  simp only [List.length_nil, live_nil, Nat.sub_zero, Nat.add_zero]
  call (freeStorage_spec (b := b) (cap := cap))
  intro _
  step
  call free4
  intro _
  cancel

theorem swap_spec {ty2 : Nat} {e2 : ElemSpec nf (T ty2) W} {v2 b2 cap2 : Nat} {ws2 : List W} :
    Triple nf (isVec e v b cap ws ∗ isVec e2 v2 b2 cap2 ws2) (swap v v2)
      (fun _ => isVec e2 v b2 cap2 ws2 ∗ isVec e v2 b cap ws) := by
  apply vec_facts; intro hv hcap
  rw [sep_comm]
  apply vec_facts; intro hv2 hcap2
  unfold swap
  rw [if_neg (by simp [hv, hv2])]
  unfold isVec vhdr
  xintro _ _
  steps
  apply Triple.ret
  cancel

/-- the reference returned by `at` -/
theorem at_spec {i : Nat} :
    Triple nf (isVec e v b cap ws) (at_ v i) (fun r => ⌜r = (b, 1 + i)⌝ ∗ isVec e v b cap ws) := by
  apply vec_facts'; intro hv hcap
  unfold at_
  rw [if_neg hv]
  unfold isVec
  xintro h
  call begin_spec
  intro r
  xsub
  apply Triple.ret
  cancel

theorem front_spec :
    Triple nf (isVec e v b cap ws) (front v) (fun r => ⌜r = if ws = [] then (0, 0) else (b, 1)⌝ ∗ isVec e v b cap ws) := by
  unfold front isVec
  xintro h
  call empty_spec
  intro r
  xsub
  by_cases hw : ws = []
  · subst hw
    simp only [List.length_nil, decide_true, if_true]
    apply Triple.ret
    cancel
  · rw [if_neg (by simpa using hw), if_neg hw]
    call begin_spec
    intro r
    xsub
    cancel

theorem back_spec :
    Triple nf (isVec e v b cap ws) (back v) (fun r => ⌜r = if ws = [] then (0, 0) else (b, ws.length)⌝ ∗ isVec e v b cap ws) := by
  unfold back isVec
  xintro h
  call empty_spec
  intro r
  xsub
  by_cases hw : ws = []
  · subst hw
    simp only [List.length_nil, decide_true, if_true]
    apply Triple.ret
    cancel
  · rw [if_neg (by simpa using hw), if_neg hw]
    have : ws.length ≠ 0 := by simpa using hw
    call end_spec
    intro r
    xsub
    refine Triple.post (pminus_spec' (by omega)) ?_
    intro r
    xsub
    cancel
    simp

theorem data_spec :
    Triple nf (isVec e v b cap ws) (data v) (fun r => ⌜r = (b, 1)⌝ ∗ isVec e v b cap ws) := by
  apply vec_facts'; intro hv hcap
  unfold data
  rw [if_neg hv]
  unfold isVec
  xintro h
  call begin_spec
  intro r
  xsub
  cancel

theorem vsize_spec :
    Triple nf (isVec e v b cap ws) (size v) (fun r => ⌜r = ws.length⌝ ∗ isVec e v b cap ws) := by
  unfold isVec; xintro h; call size_spec; intro r; xsub; cancel
theorem vempty_spec :
    Triple nf (isVec e v b cap ws) (empty v) (fun r => ⌜r = decide (ws.length = 0)⌝ ∗ isVec e v b cap ws) := by
  unfold isVec; xintro h; call empty_spec; intro r; xsub; cancel
theorem vcapacity_spec :
    Triple nf (isVec e v b cap ws) (capacity v) (fun r => ⌜r = cap⌝ ∗ isVec e v b cap ws) := by
  unfold isVec; xintro h; call capacity_spec; intro r; xsub; cancel

/-- element `i` is where `at` says -/
theorem vec_cell {i : Nat} {w : W} (h : ws[i]? = some w) :
    ∃ R, isVec e v b cap ws = (cell e (b, 1 + i) w ∗ R) := by
  obtain ⟨X, Y, rfl, rfl⟩ : ∃ X Y, ws = X ++ w :: Y ∧ X.length = i := by
    obtain ⟨hj, rfl⟩ := List.getElem?_eq_some_iff.1 h
    exact ⟨ws.take i, ws.drop (i+1), by simp, by simp; omega⟩
  refine ⟨vhdr v b (X ++ w :: Y).length cap ty ∗ ⌜(X ++ w :: Y).length ≤ cap⌝ ∗ (live e b 1 X ∗ live e b (1 + X.length + 1) Y) ∗
    raws b (1 + (X ++ w :: Y).length) (cap - (X ++ w :: Y).length), ?_⟩
  unfold isVec
  rw [live_append, live_cons]
  apply ent_antisymm <;>
  · xintro h
    cancel

end CC.Vec

