import Verif.Vec.Spec
/-!
# Specifications of the vector operations, continued
-/
namespace CC.Vec
open CC CC.Tac
variable {V W β : Type} {nf : Prop} {T : Nat → Ops V} {ty : Nat} {e : ElemSpec nf (T ty) W}
variable {v b n cap : Nat} {ws : List W} {R : HProp V}

/-- Outcome of an operation that may have to reallocate (`full`): the new contents `ws1` with capacity `cap1` — in the old block unless a
reallocation was needed — or, only if the allocator can fail, everything as it was. -/
def Res (nf full : Prop) (b cap : Nat) (ws : List W) (cap1 : Nat) (ws1 : List W) (b' cap' : Nat) (ws' : List W) : Prop :=
  (ws' = ws1 ∧ cap' = cap1 ∧ (¬ full → b' = b)) ∨ (¬ nf ∧ full ∧ ws' = ws ∧ b' = b ∧ cap' = cap)

/-- references to `value` can be copied while `R` holds -/
def CanCopy {o : Ops V} (e : ElemSpec nf o W) (R : HProp V) (value : Loc) (w : W) : Prop :=
  ∀ l, Triple nf (R ∗ ∃ₛ y, pts l y) (o.copy l value) (fun _ => R ∗ cell e l w)

theorem CanCopy.cell {o : Ops V} {e : ElemSpec nf o W} {value : Loc} {w : W} : CanCopy e (cell e value w) value w :=
  fun _ => copyCell_spec

theorem CanCopy.frame {o : Ops V} {e : ElemSpec nf o W} {value : Loc} {w : W} {P : HProp V} (h : CanCopy e P value w) {R : HProp V} :
    CanCopy e (P ∗ R) value w := by
  intro l
  call (h l)
  intro _
  cancel

theorem CanCopy.frame' {o : Ops V} {e : ElemSpec nf o W} {value : Loc} {w : W} {P : HProp V} (h : CanCopy e P value w) {R : HProp V} :
    CanCopy e (R ∗ P) value w := by
  rw [sep_comm]; exact h.frame

/-- an element of a live range can be copied -/
theorem CanCopy.live {o : Ops V} {e : ElemSpec nf o W} {b i : Nat} {ws : List W} {j : Nat} {w : W} (h : ws[j]? = some w) :
    CanCopy e (live e b i ws) (b, i + j) w := by
  obtain ⟨X, Y, rfl, rfl⟩ : ∃ X Y, ws = X ++ w :: Y ∧ X.length = j := by
    obtain ⟨hj, rfl⟩ := List.getElem?_eq_some_iff.1 h
    exact ⟨ws.take j, ws.drop (j+1), by simp, by simp; omega⟩
  rw [live_append, live_cons]
  have := (CanCopy.cell (e := e) (value := (b, i + X.length)) (w := w)).frame (R := CC.live e b i X ∗ CC.live e b (i + X.length + 1) Y)
  rw [sep_left_comm] at this
  exact this

theorem raws_pos {b i n : Nat} (h : 0 < n) : raws (V := V) b i n = ((∃ₛ x, pts (b, i) x) ∗ raws b (i+1) (n-1)) := by
  obtain ⟨m, rfl⟩ : ∃ m, n = m + 1 := ⟨n - 1, by omega⟩
  rfl

theorem live_snoc {o : Ops V} {e : ElemSpec nf o W} {b i : Nat} {ws : List W} {w : W} :
    live e b i (ws ++ [w]) = (live e b i ws ∗ cell e (b, i + ws.length) w) := by
  rw [live_append, live_cons, live_nil, sep_emp]

/-- push_back without reallocation; the argument may be an element of the vector -/
theorem pushBack_room {value : Loc} {w : W} (hv0 : value.1 ≠ 0) (hroom : ws.length < cap)
    (hc : CanCopy e (live e b 1 ws ∗ R) value w) :
    Triple nf (isVec e v b cap ws ∗ R) (pushBack T v value) (fun _ => isVec e v b cap (ws ++ [w]) ∗ R) := by
  unfold isVec
  rw [sep_assoc]
  apply hdr_fact; intro hv
  xintro hcap
  unfold pushBack
  rw [if_neg (by simp [hv, hv0])]
  call ldFinish
  intro r
  xsub
  call ldEos
  intro r
  xsub
  rw [if_neg (by simp; omega)]
  step
  rw [if_neg (by simp)]
  call ldTy
  intro r
  xsub
  call ldFinish
  intro r
  xsub
  rw [raws_pos (by omega)]
  call (hc (b, 1 + ws.length))
  intro _
  call ldFinish
  intro r
  xsub
  call (stFinish (b := b) (m := (ws ++ [w]).length) (by simp [padd]; omega))
  intro _
  rw [live_snoc]
  have h1 : 1 + (ws ++ [w]).length = 1 + ws.length + 1 := by simp; omega
  have h2 : cap - (ws ++ [w]).length = cap - ws.length - 1 := by simp; omega
  rw [h1, h2]
  cancel
  simp; omega

theorem pushBack_spec {value : Loc} {w : W} (hv0 : value.1 ≠ 0) (hp : e.Plain ∨ ws = [] ∨ ws.length < cap) :
    Triple nf (isVec e v b cap ws ∗ cell e value w) (pushBack T v value)
      (fun _ => ∃ₛ b' cap' ws', ⌜Res nf (ws.length = cap) b cap ws (if ws.length = cap then newCap cap 1 cap else cap) (ws ++ [w]) b' cap' ws'⌝ ∗
        isVec e v b' cap' ws' ∗ cell e value w) := by
  by_cases hfull : ws.length = cap
  · have hp' : e.Plain ∨ ws = [] := by
      rcases hp with h | h | h
      · exact Or.inl h
      · exact Or.inr h
      · omega
    refine Triple.fact (p := v ≠ 0) (by intro h hh; unfold isVec at hh; rw [sep_assoc] at hh; exact hdr_ne hh) ?_
    intro hv
    unfold pushBack
    rw [if_neg (by simp [hv, hv0])]
    have h2 : Triple nf (isVec e v b cap ws) (ldP (v, 2)) (fun r => ⌜r = (b, 1 + ws.length)⌝ ∗ isVec e v b cap ws) := by
      unfold isVec; xintro h; call ldFinish; intro r; xsub; cancel
    have h3 : Triple nf (isVec e v b cap ws) (ldP (v, 3)) (fun r => ⌜r = (b, 1 + cap)⌝ ∗ isVec e v b cap ws) := by
      unfold isVec; xintro h; call ldEos; intro r; xsub; cancel
    call h2
    intro r
    xsub
    call h3
    intro r
    xsub
    rw [if_pos (by simp [hfull])]
    call (realloc_spec (k := 1) hp')
    intro failed
    cases failed with
    | true =>
      simp only [if_true]
      xintro h
      apply Triple.ret
      xexists b, cap, ws
      cancel
      exact Or.inr ⟨h, hfull, rfl, rfl, rfl⟩
    | false =>
      simp only [Bool.false_eq_true, if_false]
      xintro b' hb'
      have hN : ws.length < newCap cap 1 ws.length := by unfold newCap; split <;> omega
      unfold isVec
      xintro hcap
      call ldTy
      intro r
      xsub
      call ldFinish
      intro r
      xsub
      rw [raws_pos (by omega)]
      call (copyCell_spec (e := e) (l := (b', 1 + ws.length)) (s := value) (w := w))
      intro _
      call ldFinish
      intro r
      xsub
      call (stFinish (b := b') (m := (ws ++ [w]).length) (by simp [padd]; omega))
      intro _
      xexists b', newCap cap 1 ws.length, ws ++ [w]
      rw [live_snoc]
      have h1 : 1 + (ws ++ [w]).length = 1 + ws.length + 1 := by simp; omega
      have h2 : newCap cap 1 ws.length - (ws ++ [w]).length = newCap cap 1 ws.length - ws.length - 1 := by simp; omega
      rw [h1, h2]
      cancel
      · simp; omega
      · refine Or.inl ⟨rfl, ?_, fun h => absurd hfull h⟩
        rw [if_pos hfull, hfull]
  · refine Triple.fact (p := ws.length ≤ cap) (by
      intro h hh; unfold isVec at hh
      rw [sep_assoc, sep_left_comm, sep_assoc, hpure_sep_apply] at hh; exact hh.1) ?_
    intro hcap
    refine Triple.post (pushBack_room (w := w) hv0 (by omega) CanCopy.cell.frame') ?_
    intro _
    xexists b, cap, ws ++ [w]
    cancel
    refine Or.inl ⟨rfl, ?_, fun _ => rfl⟩
    rw [if_neg hfull]

theorem popBack_spec :
    Triple nf (isVec e v b cap ws) (popBack T v) (fun _ => isVec e v b cap ws.dropLast) := by
  unfold isVec
  apply hdr_fact; intro hv
  xintro hcap
  unfold popBack
  call empty_spec
  intro r
  xsub
  rcases List.eq_nil_or_concat ws with rfl | ⟨ws, w, rfl⟩
  · simp only [List.length_nil, decide_true, if_true]
    apply Triple.ret
    simp only [List.dropLast_nil, List.length_nil]
    cancel
  · rw [if_neg (by simp)]
    simp only [List.concat_eq_append] at *
    call ldTy
    intro r
    xsub
    have hback : Triple nf (vhdr (V := V) v b (ws ++ [w]).length cap ty) (back v)
        (fun r => ⌜r = (b, 1 + ws.length)⌝ ∗ vhdr v b (ws ++ [w]).length cap ty) := by
      unfold back
      call empty_spec
      intro r
      xsub
      rw [if_neg (by simp)]
      call end_spec
      intro r
      xsub
      refine Triple.post (pminus_spec' (by simp)) ?_
      intro r
      xsub
      cancel
      simp; omega
    call hback
    intro r
    xsub
    rw [live_snoc]
    call (destroyCell_spec (e := e) (l := (b, 1 + ws.length)) (w := w))
    intro _
    call ldFinish
    intro r
    xsub
    apply pminus_spec (by simp)
    call (stFinish (b := b) (m := ws.length) (by simp; omega))
    intro _
    rw [List.dropLast_concat]
    have h1 : cap - ws.length = cap - (ws ++ [w]).length + 1 := by simp at hcap ⊢; omega
    have h2 : 1 + (ws ++ [w]).length = 1 + ws.length + 1 := by simp; omega
    rw [h1, h2, raws_succ]
    cancel
    simp at hcap; omega

end CC.Vec
