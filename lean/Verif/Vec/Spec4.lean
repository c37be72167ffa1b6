import Verif.Vec.Spec3
/-!
# Specifications of the vector operations: insert, shrink, copy, assign
-/
namespace CC.Vec
open CC CC.Tac
variable {V W β α : Type} {nf : Prop} {T : Nat → Ops V} {ty : Nat} {e : ElemSpec nf (T ty) W}
variable {v b n cap : Nat} {ws : List W} {R : HProp V}

/-- the capacity `c_vector_insert_n` ends up with -/
def insCap (cap sz count : Nat) : Nat := if cap < sz + count then newCap cap (count - (cap - sz)) sz else cap

theorem insertRoom_spec {count k : Nat} (hk : k ≤ ws.length) (hp : e.Plain ∨ ws = [] ∨ ws.length + count ≤ cap) :
    Triple nf (isVec e v b cap ws) (insertRoom T v (b, 1 + k) count)
      (fun r => match r with
        | none => ⌜¬ nf ∧ cap < ws.length + count⌝ ∗ isVec e v b cap ws
        | some p => ∃ₛ b', ⌜p = (b', 1 + k) ∧ (¬ cap < ws.length + count → b' = b) ∧ (cap < ws.length + count → b' ≠ 0)⌝ ∗
            isVec e v b' (insCap cap ws.length count) ws) := by
  apply vec_facts'; intro hv hcap
  unfold insertRoom
  have hav : Triple nf (isVec e v b cap ws) (available v) (fun r => ⌜r = cap - ws.length⌝ ∗ isVec e v b cap ws) := by
    unfold isVec; xintro h; call (available_spec h); intro r; xsub; cancel
  have hst : ∀ {b cap}, Triple nf (isVec e v b cap ws) (ldP (v, 1)) (fun r => ⌜r = (b, 1)⌝ ∗ isVec e v b cap ws) := by
    intro b cap; unfold isVec; xintro h; call ldStart; intro r; xsub; cancel
  call hav
  intro r
  xsub
  by_cases hfull : cap < ws.length + count
  · rw [if_pos (by omega)]
    have hp' : e.Plain ∨ ws = [] := by
      rcases hp with h | h | h
      · exact Or.inl h
      · exact Or.inr h
      · omega
    call hst
    intro r
    xsub
    apply psub_spec (by omega)
    call hav
    intro r
    xsub
    call (realloc_spec (k := count - (cap - ws.length)) hp')
    intro failed
    cases failed with
    | true =>
      simp only [if_true]
      xintro h
      apply Triple.ret
      dsimp only
      cancel
    | false =>
      simp only [Bool.false_eq_true, if_false]
      xintro b' hb'
      call hst
      intro r
      xsub
      apply Triple.ret
      xexists b'
      have : insCap cap ws.length count = newCap cap (count - (cap - ws.length)) ws.length := if_pos hfull
      rw [this]
      cancel
      exact ⟨by simp [padd], fun h => absurd hfull h, fun _ => hb'⟩
  · rw [if_neg (by omega)]
    apply Triple.ret
    xexists b
    have : insCap cap ws.length count = cap := if_neg hfull
    rw [this]
    cancel
    exact ⟨rfl, fun _ => rfl, fun h => absurd h hfull⟩

/-- insertion of `count` copies behind `X`, provided the reallocation makes enough room -/
theorem insertN_spec {X Y : List W} {count : Nat} {value : Loc} {w : W} (hv0 : value.1 ≠ 0)
    (hroom : (X ++ Y).length + count ≤ insCap cap (X ++ Y).length count)
    (hp : e.Plain ∨ X ++ Y = [] ∨ (X ++ Y).length + count ≤ cap) :
    Triple nf (isVec e v b cap (X ++ Y) ∗ cell e value w) (insertN T v (b, 1 + X.length) count value)
      (fun r => ∃ₛ b' cap' ws', ⌜Res nf (cap < (X ++ Y).length + count) b cap (X ++ Y) (insCap cap (X ++ Y).length count)
          (X ++ List.replicate count w ++ Y) b' cap' ws' ∧
          (r = (b', 1 + X.length) ∧ ws' = X ++ List.replicate count w ++ Y ∨
            r = (b, 1 + (X ++ Y).length) ∧ ¬ nf ∧ cap < (X ++ Y).length + count ∧ ws' = X ++ Y ∧ b' = b ∧ cap' = cap)⌝ ∗
        isVec e v b' cap' ws' ∗ cell e value w) := by
  apply vec_facts; intro hv hcap
  unfold insertN
  rw [if_neg (by simp [hv, hv0])]
  have hval : Triple nf (isVec e v b cap (X ++ Y)) (isValidPos v (b, 1 + X.length)) (fun r => ⌜r = true⌝ ∗ isVec e v b cap (X ++ Y)) := by
    unfold isVec; xintro h; call isValidPos_spec; intro r; xsub; cancel; simp
  call hval
  intro r
  xsub
  simp only [Bool.not_true, Bool.false_eq_true, if_false]
  call (insertRoom_spec (count := count) (k := X.length) (by simp) hp)
  intro r
  cases r with
  | none =>
    dsimp only
    xintro h
    have hend : Triple nf (isVec e v b cap (X ++ Y)) (vend v) (fun r => ⌜r = (b, 1 + (X ++ Y).length)⌝ ∗ isVec e v b cap (X ++ Y)) := by
      unfold isVec; xintro h; call vend_spec; intro r; xsub; cancel
    call hend
    intro r
    xsub
    xexists b, cap, X ++ Y
    cancel
    exact ⟨Or.inr ⟨h.1, h.2, rfl, rfl, rfl⟩, Or.inr ⟨rfl, h.1, h.2, rfl, rfl, rfl⟩⟩
  | some p =>
    dsimp only
    xintro b' h
    obtain ⟨rfl, h1, h2⟩ := h
    generalize hN : insCap cap (X ++ Y).length count = N at *
    unfold isVec
    xintro hc'
    call ldFinish
    intro r
    xsub
    apply psub_spec (by simp)
    have hn : 1 + (X ++ Y).length - (1 + X.length) = Y.length := by simp; omega
    rw [hn, live_append]
    have hl : 1 + (X ++ Y).length = 1 + X.length + Y.length := by simp; omega
    have hr : raws (V := V) b' (1 + (X ++ Y).length) (N - (X ++ Y).length) =
        (raws b' (1 + X.length + Y.length) count ∗ raws b' (1 + X.length + Y.length + count) (N - ((X ++ Y).length + count))) := by
      rw [hl, ← raws_append]; congr 1; omega
    rw [hr]
    simp only [padd]
    call (memmove_up (e := e) (b := b') (i := 1 + X.length) (k := count) (ws := Y) rfl rfl)
    intro _
    call ldTy
    intro r
    xsub
    have hf := fill_spec (e := e) (b := b') (i := 1 + X.length) (n := count) (value := value) (w := w)
    rw [arg_cell hv0] at hf
    call hf
    intro _
    call ldFinish
    intro r
    xsub
    call (stFinish (b := b') (m := (X ++ List.replicate count w ++ Y).length) (by simp; omega))
    intro _
    apply Triple.ret
    xexists b', N, X ++ List.replicate count w ++ Y
    have e1 : 1 + (X ++ List.replicate count w ++ Y).length = 1 + X.length + Y.length + count := by simp; omega
    have e2 : (X ++ List.replicate count w ++ Y).length = (X ++ Y).length + count := by simp; omega
    have e3 : 1 + (X ++ List.replicate count w).length = 1 + X.length + count := by simp; omega
    rw [live_append, live_append, e1, e2, e3]
    cancel
    exact ⟨Or.inl ⟨rfl, rfl, h1⟩, by simp⟩

theorem insertN_invalid {count : Nat} {p value : Loc} (hv0 : value.1 ≠ 0) (hp : ¬ (p.1 = b ∧ 1 ≤ p.2 ∧ p.2 ≤ 1 + ws.length)) :
    Triple nf (isVec e v b cap ws) (insertN T v p count value) (fun r => ⌜r = (b, 1 + ws.length)⌝ ∗ isVec e v b cap ws) := by
  apply vec_facts'; intro hv hcap
  unfold insertN
  rw [if_neg (by simp [hv, hv0])]
  unfold isVec
  xintro h
  call isValidPos_spec
  intro r
  xsub
  rw [decide_eq_false hp]
  simp only [Bool.not_false, if_true]
  call vend_spec
  intro r
  xsub
  cancel

/-- shrink_to_fit: same contents; capacity equals size unless the allocation failed -/
theorem shrinkToFit_spec (hp : e.Plain ∨ ws = [] ∨ ws.length = cap) :
    Triple nf (isVec e v b cap ws) (shrinkToFit T v)
      (fun _ => ∃ₛ b' cap', ⌜cap' = ws.length ∨ (¬ nf ∧ b' = b ∧ cap' = cap)⌝ ∗ isVec e v b' cap' ws) := by
  unfold isVec
  apply hdr_fact; intro hv
  xintro hcap
  unfold shrinkToFit
  rw [if_neg hv]
  call eos_spec
  intro r
  xsub
  call end_spec
  intro r
  xsub
  by_cases hfit : ws.length = cap
  · rw [if_pos (by simp [hfit])]
    apply Triple.ret
    xexists b, cap
    cancel
    exact Or.inl hfit.symm
  rw [if_neg (by simp; omega)]
  have hp' : e.Plain ∨ ws = [] := by
    rcases hp with h | h | h
    · exact Or.inl h
    · exact Or.inr h
    · exact absurd h hfit
  call ldFinish
  intro r
  xsub
  call ldStart
  intro r
  xsub
  apply psub_spec (by omega)
  rw [show 1 + ws.length - 1 = ws.length by omega]
  by_cases hw : ws = []
  · subst hw
    simp only [List.length_nil, if_true, live_nil, Nat.sub_zero, Nat.add_zero]
    unfold vhdr
    call (freeStorage_spec (b := b) (cap := cap))
    intro _
    steps
    apply Triple.ret
    xexists 0, 0
    rw [buf_zero]
    simp only [Nat.sub_zero, Nat.add_zero, raws_zero]
    cancel
    exact Or.inl trivial
  rw [if_neg (by simpa using hw)]
  apply mallocO_spec
  · intro h
    rw [if_pos rfl]
    apply Triple.ret
    xexists b, cap
    cancel
    exact Or.inr ⟨h, rfl, rfl⟩
  intro a ha
  rw [if_neg ha]
  call (memcpy_plain (e := e) (b := b) (i := 1) (c := a) (j := 1) (n := ws.length) (ws := ws) rfl hp')
  intro _
  call ldTy
  intro r
  xsub
  call vbegin_spec
  intro r
  xsub
  call vend_spec
  intro r
  xsub
  call (destroyLoop_spec (e := e) (b := b) (i := 1) (ws := ws) rfl)
  intro _
  call ldStart
  intro r
  xsub
  unfold vhdr
  refine Triple.pre (P' := (buf b cap ∗ raws b 1 cap) ∗ live e a 1 ws ∗ blk a ws.length ∗
      (blk v 4 ∗ pts (v, 1) (.ptr b 1) ∗ pts (v, 2) (.ptr b (1 + ws.length)) ∗ pts (v, 3) (.ptr b (1 + cap)) ∗ fld v 4 ty)) ?_ ?_
  · have : raws (V := V) b 1 cap = (raws b 1 ws.length ∗ raws b (1 + ws.length) (cap - ws.length)) := by
      rw [← raws_append]; congr 1; omega
    rw [this]
    cancel
  call (freeStorage_spec (b := b) (cap := cap))
  intro _
  steps
  apply Triple.ret
  xexists a, ws.length
  rw [buf_ne ha]
  simp only [padd, Nat.sub_self, raws_zero]
  cancel
  · exact Nat.le_refl _
  · exact Or.inl trivial

/-- overwriting the first elements of a vector of plain elements with the bytes of other elements -/
theorem overwrite_spec (hp : e.Plain) {b i c j : Nat} {ws us : List W} (hl : ws.length ≤ us.length) :
    Triple nf (live e b i ws ∗ live e c j us) (memcpy (c, j) (b, i) ws.length)
      (fun _ => live e b i ws ∗ live e c j (ws ++ us.drop ws.length)) := by
  have hs : us = us.take ws.length ++ us.drop ws.length := (List.take_append_drop _ _).symm
  have hlt : (us.take ws.length).length = ws.length := by simp; omega
  have he : live e c j us ⊢ₛ (raws c j ws.length ∗ live e c (j + ws.length) (us.drop ws.length)) := by
    conv => lhs; rw [hs]
    rw [live_append, hlt]
    refine sep_mono ?_ (ent_refl _)
    have := live_drop hp (b := c) (i := j) (ws := us.take ws.length)
    rw [hlt] at this
    exact this
  refine Triple.pre (sep_mono (ent_refl _) he) ?_
  call (memcpy_plain (e := e) (b := b) (i := i) (c := c) (j := j) (n := ws.length) (ws := ws) rfl (Or.inl hp))
  intro _
  rw [live_append]
  cancel

theorem vec_cap0 {h : Heap V} (hh : (isVec e v 0 cap ws ∗ R) h) : cap = 0 := by
  unfold isVec vhdr at hh
  rw [buf_zero] at hh
  have he : (blk (V := V) v 4 ∗ pts (v, 1) (.ptr 0 1) ∗ pts (v, 2) (.ptr 0 (1 + ws.length)) ∗ pts (v, 3) (.ptr 0 (1 + cap)) ∗ fld v 4 ty ∗ ⌜cap = 0⌝) ⊢ₛ
      ⌜cap = 0⌝ ∗ (blk v 4 ∗ pts (v, 1) (.ptr 0 1) ∗ pts (v, 2) (.ptr 0 (1 + ws.length)) ∗ pts (v, 3) (.ptr 0 (1 + cap)) ∗ fld v 4 ty) := by cancel
  obtain ⟨_, _, _, _, ⟨_, _, _, _, hx, _⟩, _⟩ := hh
  exact (hpure_sep_apply.1 (he _ hx)).1

/-- two vectors have different storage blocks (or none) -/
theorem vec_blocks {ty2 : Nat} {e2 : ElemSpec nf (T ty2) W} {v2 b2 cap2 : Nat} {ws2 : List W} (h : Heap V)
    (hh : (isVec e v b cap ws ∗ isVec e2 v2 b2 cap2 ws2 ∗ R) h) : b ≠ b2 ∨ (cap = 0 ∧ cap2 = 0 ∧ b = 0) := by
  by_cases hb : b = 0
  · subst hb
    by_cases hb2 : b2 = 0
    · subst hb2
      refine Or.inr ⟨vec_cap0 hh, ?_, rfl⟩
      rw [sep_left_comm] at hh
      exact vec_cap0 hh
    · exact Or.inl (Ne.symm hb2)
  · by_cases hb2 : b2 = 0
    · subst hb2; exact Or.inl hb
    · left
      unfold isVec vhdr at hh
      rw [buf_ne hb, buf_ne hb2] at hh
      have := loc_ne_of (l₁ := (b, 0)) (l₂ := (b2, 0)) hh (by
        xintro _ _
        cancel)
      intro h; exact this (by rw [h])

/-- What `c_vector_copy` does, when no allocation fails: the copy has as many elements as the source has *capacity*. -/
theorem copy_spec {T : Nat → Ops V} {e : ElemSpec True (T ty) W} (hp : e.Plain) (hty : ty ≠ 0) :
    Triple True (isVec e v b cap ws) (copy T v)
      (fun r => isVec e v b cap ws ∗ ∃ₛ b', isVec e r b' cap (ws ++ List.replicate (cap - ws.length) e.dflt)) := by
  apply vec_facts'; intro hv hcap
  unfold copy
  rw [if_neg hv]
  have hldty : Triple True (isVec e v b cap ws) (ldN (v, 4)) (fun r => ⌜r = ty⌝ ∗ isVec e v b cap ws) := by
    unfold isVec; xintro h; call ldTy; intro r; xsub; cancel
  call hldty
  intro r
  xsub
  apply create_spec (e := e) hty
  · intro h; exact absurd trivial h
  intro r hr
  rw [if_neg hr]
  call (vcapacity_spec (v := v) (b := b) (cap := cap) (ws := ws) (e := e))
  intro c
  xsub
  call (reserve_spec (e := e) (v := r) (b := 0) (cap := 0) (ws := []) (k := cap) (Or.inl hp))
  intro _
  xintro b' cap' ws' h
  have hw : ws' = List.replicate cap e.dflt ∧ cap' = cap := by
    rcases h with ⟨h1, h2, _⟩ | ⟨h, _⟩
    · by_cases hc : 0 < cap
      · rw [if_pos hc] at h1 h2
        simp only [List.nil_append, List.length_nil, Nat.sub_zero] at h1 h2
        refine ⟨h1, ?_⟩
        rw [h2]; unfold newCap; rw [if_pos (by omega)]; omega
      · have : cap = 0 := by omega
        subst this
        rw [if_neg hc] at h1 h2
        exact ⟨h1, h2⟩
    · exact absurd trivial h
  obtain ⟨rfl, rfl⟩ := hw
  have hst : ∀ {v b : Nat} {ws : List W}, Triple True (isVec e v b cap' ws) (ldP (v, 1)) (fun r => ⌜r = (b, 1)⌝ ∗ isVec e v b cap' ws) := by
    intro v b ws; unfold isVec; xintro h; call ldStart; intro r; xsub; cancel
  call (hst (v := r))
  intro s
  xsub
  call (hst (v := v))
  intro s
  xsub
  call (vsize_spec (v := v) (e := e))
  intro s
  xsub
  unfold isVec
  xintro _ _
  call (overwrite_spec hp (b := b) (i := 1) (c := b') (j := 1) (ws := ws) (us := List.replicate cap' e.dflt) (by simp; omega))
  intro _
  apply Triple.ret
  xexists b'
  have e1 : (ws ++ (List.replicate cap' e.dflt).drop ws.length) = ws ++ List.replicate (cap' - ws.length) e.dflt := by
    rw [List.drop_replicate]
  have e2 : (ws ++ List.replicate (cap' - ws.length) e.dflt).length = cap' := by simp; omega
  rw [e1, e2, List.length_replicate]
  cancel
  exact Nat.le_refl _

end CC.Vec
