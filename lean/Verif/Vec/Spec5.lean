import Verif.Vec.Spec4
/-!
# Specifications of the vector operations: assign, create_n, create_from_array
-/
namespace CC.Vec
open CC CC.Tac
variable {V W β α : Type} {nf : Prop} {T : Nat → Ops V} {ty : Nat} {e : ElemSpec nf (T ty) W}
variable {v b n cap : Nat} {ws : List W} {R : HProp V}

/-- overwriting raw slots with the bytes of plain elements leaves them raw -/
theorem overwrite_raw (hp : e.Plain) {b i c j : Nat} {ws : List W} :
    Triple nf (live e b i ws ∗ raws c j ws.length) (memcpy (c, j) (b, i) ws.length)
      (fun _ => live e b i ws ∗ raws c j ws.length) := by
  refine Triple.post (memcpy_plain (e := e) rfl (Or.inl hp)) ?_
  intro _
  exact sep_mono (ent_refl _) (live_drop hp)

/-- What `c_vector_assign` does, when no allocation fails: the contents after it are the source's elements padded with default elements to
the source's *capacity* if that is larger than the target's capacity, and *nothing* otherwise. -/
theorem assign_spec {T : Nat → Ops V} {e : ElemSpec True (T ty) W} {v2 b2 cap2 : Nat} {ws2 : List W} (hp : e.Plain) :
    Triple True (isVec e v b cap ws ∗ isVec e v2 b2 cap2 ws2) (assign T v v2)
      (fun r => ⌜r = v⌝ ∗ isVec e v2 b2 cap2 ws2 ∗ ∃ₛ b', isVec e v b'
        (if cap < cap2 then newCap cap cap2 0 else cap)
        (if cap < cap2 then ws2 ++ List.replicate (cap2 - ws2.length) e.dflt else [])) := by
  apply Triple.fact (p := v ≠ v2)
  · intro h hh
    unfold isVec vhdr at hh
    have := loc_ne_of (l₁ := (v, 0)) (l₂ := (v2, 0)) hh (by
        xintro _ _
        cancel)
    intro h; exact this (by rw [h])
  intro hne
  apply vec_facts; intro hv hcap
  rw [sep_comm]
  apply vec_facts; intro hv2 hcap2
  unfold assign
  rw [if_neg (by simp [hv, hv2]), if_pos hne]
  call (clear_spec (v := v))
  intro _
  have hldty : ∀ {v b cap : Nat} {ws : List W}, Triple True (isVec e v b cap ws) (ldN (v, 4)) (fun r => ⌜r = ty⌝ ∗ isVec e v b cap ws) := by
    intro v b cap ws; unfold isVec; xintro h; call ldTy; intro r; xsub; cancel
  have hstty : ∀ {v b cap : Nat} {ws : List W}, Triple True (isVec e v b cap ws) (stN (v, 4) ty) (fun r => isVec e v b cap ws) := by
    intro v b cap ws; unfold isVec vhdr; xintro h; rw [← bind_pure (stN (v, 4) ty)]; step; apply Triple.ret; cancel
  have hst : ∀ {v b cap : Nat} {ws : List W}, Triple True (isVec e v b cap ws) (ldP (v, 1)) (fun r => ⌜r = (b, 1)⌝ ∗ isVec e v b cap ws) := by
    intro v b cap ws; unfold isVec; xintro h; call ldStart; intro r; xsub; cancel
  call (hldty (v := v2))
  intro r
  xsub
  call (hstty (v := v))
  intro _
  call (vcapacity_spec (v := v2) (e := e))
  intro c
  xsub
  call (reserve_spec (e := e) (v := v) (b := b) (cap := cap) (ws := []) (k := cap2) (Or.inl hp))
  intro _
  xintro b' cap' ws' h
  obtain ⟨h1, h2, _⟩ := h.resolve_right (fun h => h.1 trivial)
  call (hst (v := v))
  intro s
  xsub
  call (hst (v := v2))
  intro s
  xsub
  call (vsize_spec (v := v2) (e := e))
  intro s
  xsub
  by_cases hc : cap < cap2
  · simp only [if_pos hc] at h1 h2 ⊢
    simp only [List.nil_append, List.length_nil, Nat.sub_zero] at h1 h2
    subst h1 h2
    unfold isVec
    xintro _ hle
    call (overwrite_spec hp (b := b2) (i := 1) (c := b') (j := 1) (ws := ws2) (us := List.replicate cap2 e.dflt) (by simp; omega))
    intro _
    apply Triple.ret
    xexists b'
    have e1 : (ws2 ++ (List.replicate cap2 e.dflt).drop ws2.length) = ws2 ++ List.replicate (cap2 - ws2.length) e.dflt := by
      rw [List.drop_replicate]
    have e2 : (ws2 ++ List.replicate (cap2 - ws2.length) e.dflt).length = cap2 := by simp; omega
    rw [List.length_replicate] at hle
    rw [e1, e2, List.length_replicate]
    cancel
  · simp only [if_neg hc] at h1 h2 ⊢
    subst h1 h2
    unfold isVec
    xintro hle _
    have hr : raws (V := V) b' (1 + ([] : List W).length) (cap' - ([] : List W).length) =
        (raws b' 1 ws2.length ∗ raws b' (1 + ws2.length) (cap' - ws2.length)) := by
      rw [← raws_append]; simp only [List.length_nil]; congr 1; omega
    rw [hr]
    call (overwrite_raw hp (b := b2) (i := 1) (c := b') (j := 1) (ws := ws2))
    intro _
    apply Triple.ret
    xexists b'
    rw [hr]
    cancel

theorem assign_self {nf : Prop} {T : Nat → Ops V} {e : ElemSpec nf (T ty) W} :
    Triple nf (isVec e v b cap ws) (assign T v v) (fun r => ⌜r = v⌝ ∗ isVec e v b cap ws) := by
  unfold assign
  by_cases h : v = 0
  · rw [if_pos (Or.inl h)]; apply Triple.ret; cancel
  · rw [if_neg (by simp [h]), if_neg (by simp)]; apply Triple.ret; cancel

theorem createN_spec {count : Nat} {value : Loc} {w : W} (hty : ty ≠ 0) (hv0 : value.1 ≠ 0) (hn : count ≠ 0) :
    Triple nf (cell e value w) (createN T ty count value)
      (fun r => cell e value w ∗ ⌜r = 0 → ¬ nf⌝ ∗
        if r = 0 then emp else ∃ₛ b' cap' ws', ⌜(ws' = List.replicate count w ∧ cap' = count) ∨ (¬ nf ∧ ws' = [] ∧ cap' = 0)⌝ ∗ isVec e r b' cap' ws') := by
  unfold createN
  rw [if_neg (by simp [hv0, hn])]
  apply create_spec (e := e) hty
  · intro h
    rw [if_pos rfl]
    apply Triple.ret
    rw [if_pos rfl]
    cancel
    exact fun _ => h
  intro r hr
  rw [if_neg hr]
  have := resizeWithValue_spec (e := e) (v := r) (b := 0) (cap := 0) (ws := []) (count := count) (value := value) (w := w) (Or.inr (Or.inl rfl))
  rw [arg_cell hv0] at this
  call this
  intro _
  xintro b' cap' ws' h
  apply Triple.ret
  rw [if_neg hr]
  xexists b', cap', ws'
  cancel
  · exact fun h => absurd h hr
  · rcases h with ⟨h1, h2, _⟩ | ⟨h, _, h2, _, h3⟩
    · rw [if_pos (by omega)] at h2
      simp at h1 h2
      refine Or.inl ⟨h1, ?_⟩
      rw [h2]; unfold newCap; rw [if_pos (by omega)]; omega
    · exact Or.inr ⟨h, h2, h3⟩

theorem createFromArray_spec {T : Nat → Ops V} {e : ElemSpec True (T ty) W} {vb vi : Nat} (hp : e.Plain) (hty : ty ≠ 0) (hvb : vb ≠ 0) (hws : ws ≠ []) :
    Triple True (live e vb vi ws) (createFromArray T ty (vb, vi) ws.length)
      (fun r => live e vb vi ws ∗ ∃ₛ b', isVec e r b' ws.length ws) := by
  unfold createFromArray
  rw [if_neg (by simp [hvb, hws])]
  apply create_spec (e := e) hty
  · intro h; exact absurd trivial h
  intro r hr
  rw [if_neg hr]
  call (reserve_spec (e := e) (v := r) (b := 0) (cap := 0) (ws := []) (k := ws.length) (Or.inl hp))
  intro _
  xintro b' cap' ws' h
  have hl : 0 < ws.length := List.length_pos_iff.2 hws
  obtain ⟨h1, h2, _⟩ := h.resolve_right (fun h => h.1 trivial)
  simp only [if_pos hl, List.nil_append, List.length_nil, Nat.sub_zero] at h1 h2
  have h2 : cap' = ws.length := by rw [h2]; unfold newCap; rw [if_pos (by omega)]; omega
  subst h1 h2
  unfold isVec
  xintro hle
  call ldStart
  intro r
  xsub
  call (overwrite_spec hp (b := vb) (i := vi) (c := b') (j := 1) (ws := ws) (us := List.replicate ws.length e.dflt) (by simp))
  intro _
  apply Triple.ret
  xexists b'
  rw [List.drop_eq_nil_of_le (by simp)]
  simp only [List.append_nil, List.length_replicate]
  cancel
  exact Nat.le_refl _

end CC.Vec
