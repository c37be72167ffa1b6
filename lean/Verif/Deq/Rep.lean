import Verif.Deq.Model
/-!
# Representation of deques and specifications of the basic operations
-/
namespace CC.Deq
open CC CC.Tac
open CC.Vec (nullP freeStorage buf buf_zero buf_ne arg arg_null arg_cell psub_spec psub_spec' pminus_spec pminus_spec' freeStorage_spec
  CanCopy live_snoc raws_pos newCap)
variable {V W β α : Type} {nf : Prop} {T : Nat → Ops V} {ty : Nat}
variable {v b lo n hi : Nat} {ws : List W}

/-- the deque object `v` with storage block `b`: `lo` free slots, `n` elements, `hi` free slots -/
def dhdr (v b lo n hi ty : Nat) : HProp V :=
  blk v 5 ∗ pts (v, 1) (.ptr b 1) ∗ pts (v, 2) (.ptr b (1 + lo)) ∗ pts (v, 3) (.ptr b (1 + lo + n)) ∗
    pts (v, 4) (.ptr b (1 + lo + n + hi)) ∗ fld v 5 ty ∗ buf b (lo + n + hi)

/-- The fragment is exactly a deque object `v` holding the values `ws` in storage block `b`, with `lo` raw slots in front of the
constructed elements and `hi` raw slots behind them. -/
def isDeq (e : ElemSpec nf (T ty) W) (v b lo hi : Nat) (ws : List W) : HProp V :=
  dhdr v b lo ws.length hi ty ∗ raws b 1 lo ∗ live e b (1 + lo) ws ∗ raws b (1 + lo + ws.length) hi

section
variable {o : Ops V} {e : ElemSpec nf o W}

theorem destroyLoop_spec {b i j : Nat} {ws : List W} (hj : j = i + ws.length) :
    Triple nf (live e b i ws) (destroyLoop o (b, i) (b, j)) (fun _ => raws b i ws.length) := by
  subst hj
  induction ws generalizing i with
  | nil =>
    rw [destroyLoop, if_neg (by simp)]
    apply Triple.ret
    exact ent_refl _
  | cons w ws ih =>
    rw [destroyLoop, if_pos (by simp)]
    rw [live_cons]
    call (destroyCell_spec (e := e) (l := (b, i)) (w := w))
    intro _
    have := ih (i := i + 1)
    rw [show i + 1 + ws.length = i + (w :: ws).length by simp; omega] at this
    simp only [padd]
    call this
    intro _
    rw [List.length_cons, raws_succ]
    cancel

theorem fill_spec {b i n : Nat} {value : Loc} {w : W} :
    Triple nf (arg e value w ∗ raws b i n) (fill o (b, i) n value) (fun _ => arg e value w ∗ live e b i (List.replicate n w)) := by
  induction n generalizing i with
  | zero =>
    rw [fill]
    apply Triple.ret
    exact ent_refl _
  | succ n ih =>
    rw [fill, raws_succ]
    have hstep : Triple nf (arg e value w ∗ ∃ₛ y, pts (b, i) y) (put o (b, i) value)
        (fun _ => arg e value w ∗ cell e (b, i) w) := by
      unfold put
      by_cases hv : value.1 = 0
      · rw [if_neg (by simpa using hv), arg_null hv]
        apply Triple.pure_left
        rintro rfl
        refine Triple.post (createCell_spec (e := e)) ?_
        intro _
        cancel
      · rw [if_pos hv, arg_cell hv]
        exact copyCell_spec
    call hstep
    intro _
    simp only [padd]
    call (ih (i := i + 1))
    intro _
    rw [List.replicate_succ, live_cons]
    cancel
end

theorem mallocS5 {P : HProp V} {Q : β → HProp V} {k : Addr → M V β} (hfail : ¬ nf → Triple nf P (k 0) Q)
    (hok : ∀ a x y z w u, a ≠ 0 → Triple nf (blk a 5 ∗ fld a 1 x ∗ fld a 2 y ∗ fld a 3 z ∗ fld a 4 w ∗ fld a 5 u ∗ P) (k a) Q) :
    Triple nf P (mallocS 5 >>= k) Q :=
  Triple.mallocG_spec hfail fun a j h => by
    simpa [arr, List.range_succ, sep_assoc] using hok a (j 1) (j 2) (j 3) (j 4) (j 5) h

theorem free5 {a : Addr} {u v w x y : Val V} :
    Triple nf (blk a 5 ∗ pts (a,1) u ∗ pts (a,2) v ∗ pts (a,3) w ∗ pts (a,4) x ∗ pts (a,5) y) (free a) (fun _ => emp) := by
  have := Triple.free_spec (nf := nf) (P := emp) (Q := fun _ => emp) (n := 5) (a := a) (vs := [u,v,w,x,y]) (k := fun _ => pure ()) rfl
    (Triple.ret (ent_refl _))
  simpa [arr] using this

theorem hdr_ne {P : HProp V} {h : Heap V} (hh : (dhdr v b lo n hi ty ∗ P) h) : v ≠ 0 := by
  unfold dhdr at hh
  rw [sep_assoc] at hh
  exact pts_ne_zero hh

theorem hdr_fact {m : M V α} {P : HProp V} {Q : α → HProp V}
    (h : v ≠ 0 → Triple nf (dhdr v b lo n hi ty ∗ P) m Q) : Triple nf (dhdr v b lo n hi ty ∗ P) m Q :=
  Triple.fact (fun _ hh => hdr_ne hh) h

theorem hdr_fact' {m : M V α} {Q : α → HProp V}
    (h : v ≠ 0 → Triple nf (dhdr v b lo n hi ty) m Q) : Triple nf (dhdr v b lo n hi ty) m Q := by
  rw [← sep_emp (dhdr v b lo n hi ty)] at h ⊢
  exact hdr_fact h

theorem ldSos : Triple (V := V) nf (dhdr v b lo n hi ty) (ldP (v, 1)) (fun r => ⌜r = (b, 1)⌝ ∗ dhdr v b lo n hi ty) := by
  unfold dhdr
  steps
  apply Triple.ret
  cancel
theorem ldStart : Triple (V := V) nf (dhdr v b lo n hi ty) (ldP (v, 2)) (fun r => ⌜r = (b, 1 + lo)⌝ ∗ dhdr v b lo n hi ty) := by
  unfold dhdr
  steps
  apply Triple.ret
  cancel
theorem ldFinish : Triple (V := V) nf (dhdr v b lo n hi ty) (ldP (v, 3)) (fun r => ⌜r = (b, 1 + lo + n)⌝ ∗ dhdr v b lo n hi ty) := by
  unfold dhdr
  steps
  apply Triple.ret
  cancel
theorem ldEos : Triple (V := V) nf (dhdr v b lo n hi ty) (ldP (v, 4)) (fun r => ⌜r = (b, 1 + lo + n + hi)⌝ ∗ dhdr v b lo n hi ty) := by
  unfold dhdr
  steps
  apply Triple.ret
  cancel
theorem ldTy : Triple (V := V) nf (dhdr v b lo n hi ty) (ldN (v, 5)) (fun r => ⌜r = ty⌝ ∗ dhdr v b lo n hi ty) := by
  unfold dhdr
  steps
  apply Triple.ret
  cancel
theorem stStart {p : Loc} {lo' n' : Nat} (hp : p = (b, 1 + lo')) (hn : lo' + n' = lo + n) :
    Triple (V := V) nf (dhdr v b lo n hi ty) (stP (v, 2) p) (fun _ => dhdr v b lo' n' hi ty) := by
  subst hp
  unfold dhdr
  rw [show 1 + lo' + n' = 1 + lo + n by omega, hn]
  steps
  apply Triple.ret
  cancel
theorem stFinish {p : Loc} {n' hi' : Nat} (hp : p = (b, 1 + lo + n')) (hn : n' + hi' = n + hi) :
    Triple (V := V) nf (dhdr v b lo n hi ty) (stP (v, 3) p) (fun _ => dhdr v b lo n' hi' ty) := by
  subst hp
  unfold dhdr
  rw [show 1 + lo + n + hi = 1 + lo + n' + hi' by omega, show lo + n + hi = lo + n' + hi' by omega]
  steps
  apply Triple.ret
  cancel

/-- a field access after the null check -/
theorem assert_ld {P : HProp V} {m : M V α} {Q : α → HProp V} (h : Triple nf (dhdr v b lo n hi ty ∗ P) m Q) :
    Triple nf (dhdr v b lo n hi ty ∗ P) (do cassert (v != 0); m) Q := by
  apply hdr_fact; intro hv
  step
  · simpa using hv
  exact h

theorem assert_ld' {m : M V α} {Q : α → HProp V} (h : Triple nf (dhdr v b lo n hi ty) m Q) :
    Triple nf (dhdr v b lo n hi ty) (do cassert (v != 0); m) Q := by
  rw [← sep_emp (dhdr v b lo n hi ty)] at h ⊢
  exact assert_ld h

theorem begin_spec : Triple (V := V) nf (dhdr v b lo n hi ty) (begin_ v) (fun r => ⌜r = (b, 1 + lo)⌝ ∗ dhdr v b lo n hi ty) := assert_ld' ldStart
theorem end_spec : Triple (V := V) nf (dhdr v b lo n hi ty) (end_ v) (fun r => ⌜r = (b, 1 + lo + n)⌝ ∗ dhdr v b lo n hi ty) := assert_ld' ldFinish
theorem sos_spec : Triple (V := V) nf (dhdr v b lo n hi ty) (sos v) (fun r => ⌜r = (b, 1)⌝ ∗ dhdr v b lo n hi ty) := assert_ld' ldSos
theorem eos_spec : Triple (V := V) nf (dhdr v b lo n hi ty) (eos v) (fun r => ⌜r = (b, 1 + lo + n + hi)⌝ ∗ dhdr v b lo n hi ty) := assert_ld' ldEos
theorem dbegin_spec : Triple (V := V) nf (dhdr v b lo n hi ty) (dbegin v) (fun r => ⌜r = (b, 1 + lo)⌝ ∗ dhdr v b lo n hi ty) := assert_ld' begin_spec
theorem dend_spec : Triple (V := V) nf (dhdr v b lo n hi ty) (dend v) (fun r => ⌜r = (b, 1 + lo + n)⌝ ∗ dhdr v b lo n hi ty) := assert_ld' end_spec

theorem availableStart_spec : Triple (V := V) nf (dhdr v b lo n hi ty) (availableStart v) (fun r => ⌜r = lo⌝ ∗ dhdr v b lo n hi ty) := by
  unfold availableStart
  apply assert_ld'
  call ldStart
  intro r
  xsub
  call ldSos
  intro r
  xsub
  refine Triple.post (psub_spec' (by omega)) ?_
  intro r
  xsub
  cancel
  omega

theorem availableEnd_spec : Triple (V := V) nf (dhdr v b lo n hi ty) (availableEnd v) (fun r => ⌜r = hi⌝ ∗ dhdr v b lo n hi ty) := by
  unfold availableEnd
  apply assert_ld'
  call ldEos
  intro r
  xsub
  call ldFinish
  intro r
  xsub
  refine Triple.post (psub_spec' (by omega)) ?_
  intro r
  xsub
  cancel
  omega

theorem available_spec : Triple (V := V) nf (dhdr v b lo n hi ty) (available v) (fun r => ⌜r = lo + hi⌝ ∗ dhdr v b lo n hi ty) := by
  unfold available
  call availableStart_spec
  intro r
  xsub
  call availableEnd_spec
  intro r
  xsub
  apply Triple.ret
  cancel

theorem capacity_spec : Triple (V := V) nf (dhdr v b lo n hi ty) (capacity v) (fun r => ⌜r = lo + n + hi⌝ ∗ dhdr v b lo n hi ty) := by
  unfold capacity
  apply assert_ld'
  call eos_spec
  intro r
  xsub
  call sos_spec
  intro r
  xsub
  refine Triple.post (psub_spec' (by omega)) ?_
  intro r
  xsub
  cancel
  omega

theorem empty_spec : Triple (V := V) nf (dhdr v b lo n hi ty) (empty v) (fun r => ⌜r = decide (n = 0)⌝ ∗ dhdr v b lo n hi ty) := by
  apply hdr_fact'; intro hv
  unfold empty
  rw [if_neg hv]
  call begin_spec
  intro r
  xsub
  call end_spec
  intro r
  xsub
  apply Triple.ret
  cancel
  simp

theorem size_spec : Triple (V := V) nf (dhdr v b lo n hi ty) (size v) (fun r => ⌜r = n⌝ ∗ dhdr v b lo n hi ty) := by
  apply hdr_fact'; intro hv
  unfold size
  rw [if_neg hv]
  call end_spec
  intro r
  xsub
  call begin_spec
  intro r
  xsub
  refine Triple.post (psub_spec' (by omega)) ?_
  intro r
  xsub
  cancel
  omega

theorem isValidPos_spec {p : Loc} :
    Triple (V := V) nf (dhdr v b lo n hi ty) (isValidPos v p)
      (fun r => ⌜r = decide (p.1 = b ∧ 1 + lo ≤ p.2 ∧ p.2 ≤ 1 + lo + n)⌝ ∗ dhdr v b lo n hi ty) := by
  apply hdr_fact'; intro hv
  unfold isValidPos
  rw [if_neg hv]
  call ldStart
  intro r
  xsub
  call ldFinish
  intro r
  xsub
  apply Triple.ret
  cancel
  simp only [pge]
  by_cases h : p.1 = b
  · subst h; simp
  · simp [h]

theorem front_spec : Triple (V := V) nf (dhdr v b lo n hi ty) (front v)
    (fun r => ⌜r = if n = 0 then (0, 0) else (b, 1 + lo)⌝ ∗ dhdr v b lo n hi ty) := by
  unfold front
  call empty_spec
  intro r
  xsub
  by_cases h : n = 0
  · simp only [h, decide_true, if_true]
    apply Triple.ret
    cancel
  · simp only [h, decide_false, Bool.false_eq_true, if_false]
    exact begin_spec

theorem back_spec : Triple (V := V) nf (dhdr v b lo n hi ty) (back v)
    (fun r => ⌜r = if n = 0 then (0, 0) else (b, lo + n)⌝ ∗ dhdr v b lo n hi ty) := by
  unfold back
  call empty_spec
  intro r
  xsub
  by_cases h : n = 0
  · simp only [h, decide_true, if_true]
    apply Triple.ret
    cancel
  · simp only [h, decide_false, Bool.false_eq_true, if_false]
    call end_spec
    intro r
    xsub
    refine Triple.post (pminus_spec' (by omega)) ?_
    intro r
    xsub
    cancel
    congr 1
    omega

theorem at_spec {i : Nat} : Triple (V := V) nf (dhdr v b lo n hi ty) (at_ v i)
    (fun r => ⌜r = (b, 1 + lo + i)⌝ ∗ dhdr v b lo n hi ty) := by
  apply hdr_fact'; intro hv
  unfold at_
  rw [if_neg hv]
  call begin_spec
  intro r
  xsub
  apply Triple.ret
  cancel

end CC.Deq
