import Verif.Vec.Rep
/-!
# Specifications of the vector operations
-/
namespace CC.Vec
open CC CC.Tac
variable {V W β : Type} {nf : Prop} {T : Nat → Ops V} {ty : Nat} {e : ElemSpec nf (T ty) W}
variable {v b n cap : Nat} {ws : List W}

theorem hdr_fact {α : Type} {m : M V α} {P : HProp V} {Q : α → HProp V}
    (h : v ≠ 0 → Triple nf (vhdr v b n cap ty ∗ P) m Q) : Triple nf (vhdr v b n cap ty ∗ P) m Q :=
  Triple.fact (fun _ hh => hdr_ne hh) h

theorem hdr_fact' {α : Type} {m : M V α} {Q : α → HProp V}
    (h : v ≠ 0 → Triple nf (vhdr v b n cap ty) m Q) : Triple nf (vhdr v b n cap ty) m Q := by
  rw [← sep_emp (vhdr v b n cap ty)] at h ⊢
  exact hdr_fact h

theorem begin_spec : Triple (V := V) nf (vhdr v b n cap ty) (begin_ v) (fun r => ⌜r = (b, 1)⌝ ∗ vhdr v b n cap ty) := by
  apply hdr_fact'; intro hv
  unfold begin_ vhdr
  step
  · simpa using hv
  steps
  apply Triple.ret
  cancel

theorem end_spec : Triple (V := V) nf (vhdr v b n cap ty) (end_ v) (fun r => ⌜r = (b, 1 + n)⌝ ∗ vhdr v b n cap ty) := by
  apply hdr_fact'; intro hv
  unfold end_ vhdr
  step
  · simpa using hv
  steps
  apply Triple.ret
  cancel

theorem eos_spec : Triple (V := V) nf (vhdr v b n cap ty) (eos v) (fun r => ⌜r = (b, 1 + cap)⌝ ∗ vhdr v b n cap ty) := by
  apply hdr_fact'; intro hv
  unfold eos vhdr
  step
  · simpa using hv
  steps
  apply Triple.ret
  cancel

theorem vbegin_spec : Triple (V := V) nf (vhdr v b n cap ty) (vbegin v) (fun r => ⌜r = (b, 1)⌝ ∗ vhdr v b n cap ty) := by
  apply hdr_fact'; intro hv
  unfold vbegin
  step
  · simpa using hv
  exact begin_spec

theorem vend_spec : Triple (V := V) nf (vhdr v b n cap ty) (vend v) (fun r => ⌜r = (b, 1 + n)⌝ ∗ vhdr v b n cap ty) := by
  apply hdr_fact'; intro hv
  unfold vend
  step
  · simpa using hv
  exact end_spec

theorem available_spec (h : n ≤ cap) :
    Triple (V := V) nf (vhdr v b n cap ty) (available v) (fun r => ⌜r = cap - n⌝ ∗ vhdr v b n cap ty) := by
  apply hdr_fact'; intro hv
  unfold available vhdr
  step
  · simpa using hv
  steps
  refine Triple.post (psub_spec' (by omega)) ?_
  intro r
  xsub
  cancel
  omega

theorem empty_spec : Triple (V := V) nf (vhdr v b n cap ty) (empty v) (fun r => ⌜r = decide (n = 0)⌝ ∗ vhdr v b n cap ty) := by
  apply hdr_fact'; intro hv
  unfold empty
  rw [if_neg hv]
  call begin_spec
  intro r
  xsub
  call end_spec
  intro r
  xsub
  apply Triple.ret
  cancel
  simp

theorem size_spec : Triple (V := V) nf (vhdr v b n cap ty) (size v) (fun r => ⌜r = n⌝ ∗ vhdr v b n cap ty) := by
  apply hdr_fact'; intro hv
  unfold size
  rw [if_neg hv]
  call end_spec
  intro r
  xsub
  call begin_spec
  intro r
  xsub
  refine Triple.post (psub_spec' (by omega)) ?_
  intro r
  xsub
  cancel
  omega

theorem capacity_spec : Triple (V := V) nf (vhdr v b n cap ty) (capacity v) (fun r => ⌜r = cap⌝ ∗ vhdr v b n cap ty) := by
  apply hdr_fact'; intro hv
  unfold capacity
  rw [if_neg hv]
  call eos_spec
  intro r
  xsub
  call begin_spec
  intro r
  xsub
  refine Triple.post (psub_spec' (by omega)) ?_
  intro r
  xsub
  cancel
  omega

theorem ldStart : Triple (V := V) nf (vhdr v b n cap ty) (ldP (v, 1)) (fun r => ⌜r = (b, 1)⌝ ∗ vhdr v b n cap ty) := by
  unfold vhdr
  steps
  apply Triple.ret
  cancel
theorem ldFinish : Triple (V := V) nf (vhdr v b n cap ty) (ldP (v, 2)) (fun r => ⌜r = (b, 1 + n)⌝ ∗ vhdr v b n cap ty) := by
  unfold vhdr
  steps
  apply Triple.ret
  cancel
theorem ldEos : Triple (V := V) nf (vhdr v b n cap ty) (ldP (v, 3)) (fun r => ⌜r = (b, 1 + cap)⌝ ∗ vhdr v b n cap ty) := by
  unfold vhdr
  steps
  apply Triple.ret
  cancel
theorem ldTy : Triple (V := V) nf (vhdr v b n cap ty) (ldN (v, 4)) (fun r => ⌜r = ty⌝ ∗ vhdr v b n cap ty) := by
  unfold vhdr
  steps
  apply Triple.ret
  cancel
theorem stFinish {p : Loc} {m : Nat} (hp : p = (b, 1 + m)) :
    Triple (V := V) nf (vhdr v b n cap ty) (stP (v, 2) p) (fun _ => vhdr v b m cap ty) := by
  subst hp
  unfold vhdr
  steps
  apply Triple.ret
  cancel

theorem isValidPos_spec {p : Loc} :
    Triple (V := V) nf (vhdr v b n cap ty) (isValidPos v p)
      (fun r => ⌜r = decide (p.1 = b ∧ 1 ≤ p.2 ∧ p.2 ≤ 1 + n)⌝ ∗ vhdr v b n cap ty) := by
  apply hdr_fact'; intro hv
  unfold isValidPos
  rw [if_neg hv]
  call ldStart
  intro r
  xsub
  call ldFinish
  intro r
  xsub
  apply Triple.ret
  cancel
  simp only [pge]
  by_cases h : p.1 = b
  · subst h; simp
  · simp [h]

/-- the capacity after a reallocation that asks for `n` more elements -/
def newCap (cap n sz : Nat) : Nat := if cap * 2 < n + sz then n + sz else cap * 2

/-- the storage is moved to a new block -/
theorem realloc_spec' {k : Nat} (hp : e.Plain ∨ ws = []) :
    Triple nf (isVec e v b cap ws) (reallocateAndMove T v k)
      (fun failed => if failed then ⌜¬ nf⌝ ∗ isVec e v b cap ws else ∃ₛ b', ⌜b' ≠ 0 ∧ b' ≠ b⌝ ∗ isVec e v b' (newCap cap k ws.length) ws) := by
  unfold isVec
  apply hdr_fact; intro hv
  xintro hc
  unfold reallocateAndMove
  step
  · simpa using hv
  call size_spec
  intro r
  xsub
  call capacity_spec
  intro r
  xsub
  apply mallocO_spec
  · intro h
    rw [if_pos rfl]
    apply Triple.ret
    simp only [if_true]
    cancel
  intro a ha
  rw [if_neg ha]
  apply Triple.fact (p := a ≠ b)
  · intro h hh
    by_cases hb : b = 0
    · subst hb; exact ha
    · unfold vhdr at hh
      rw [buf_ne hb] at hh
      have := loc_ne_of (l₁ := (a, 0)) (l₂ := (b, 0)) hh (by cancel)
      intro h; exact this (by rw [h])
  intro hab
  call ldStart
  intro r
  xsub
  call ldFinish
  intro r
  xsub
  apply psub_spec (by omega)
  rw [show 1 + ws.length - 1 = ws.length by omega]
  have hcap : newCap cap k ws.length = ws.length + (newCap cap k ws.length - ws.length) := by
    unfold newCap; split <;> omega
  generalize hN : newCap cap k ws.length = N at *
  have hN' : (if cap * 2 < k + ws.length then k + ws.length else cap * 2) = N := hN
  rw [hN', hcap, raws_append]
  call (memcpy_plain (e := e) (b := b) (i := 1) (c := a) (j := 1) (n := ws.length) (ws := ws) rfl hp)
  intro _
  call ldTy
  intro r
  xsub
  call begin_spec
  intro r
  xsub
  call end_spec
  intro r
  xsub
  call (destroyLoop_spec (e := e) (b := b) (i := 1) (ws := ws) rfl)
  intro _
  call ldStart
  intro r
  xsub
  unfold vhdr
  refine Triple.pre (P' := (buf b cap ∗ raws b 1 cap) ∗ live e a 1 ws ∗ raws a (1 + ws.length) (N - ws.length) ∗ blk a N ∗
      (blk v 4 ∗ pts (v, 1) (.ptr b 1) ∗ pts (v, 2) (.ptr b (1 + ws.length)) ∗ pts (v, 3) (.ptr b (1 + cap)) ∗ fld v 4 ty)) ?_ ?_
  · have : raws (V := V) b 1 cap = (raws b 1 ws.length ∗ raws b (1 + ws.length) (cap - ws.length)) := by
      rw [← raws_append]; congr 1; omega
    rw [this, ← hcap]
    cancel
  call (freeStorage_spec (b := b) (cap := cap))
  intro _
  steps
  apply Triple.ret
  simp only [Bool.false_eq_true, if_false]
  rw [← hcap]
  xexists a
  rw [buf_ne ha]
  simp only [padd]
  cancel
  · omega

theorem realloc_spec {k : Nat} (hp : e.Plain ∨ ws = []) :
    Triple nf (isVec e v b cap ws) (reallocateAndMove T v k)
      (fun failed => if failed then ⌜¬ nf⌝ ∗ isVec e v b cap ws else ∃ₛ b', ⌜b' ≠ 0⌝ ∗ isVec e v b' (newCap cap k ws.length) ws) := by
  refine Triple.post (realloc_spec' hp) ?_
  intro failed
  cases failed with
  | true => exact ent_refl _
  | false =>
    simp only [Bool.false_eq_true, if_false]
    xintro b' h
    xexists b'
    cancel
    exact h.1

end CC.Vec
