import Verif.Vec.Model
/-!
# Representation of vectors and specifications of the element loops
-/
namespace CC.Vec
open CC CC.Tac
variable {V W β : Type} {nf : Prop} {T : Nat → Ops V} {ty : Nat}

/-- the element storage block of `cap` slots (nothing is allocated for the NULL pointer) -/
def buf (b cap : Nat) : HProp V := if b = 0 then ⌜cap = 0⌝ else blk b cap

/-- the vector object `v` with storage block `b`, `n` elements, capacity `cap` -/
def vhdr (v b n cap ty : Nat) : HProp V :=
  blk v 4 ∗ pts (v, 1) (.ptr b 1) ∗ pts (v, 2) (.ptr b (1 + n)) ∗ pts (v, 3) (.ptr b (1 + cap)) ∗ fld v 4 ty ∗ buf b cap

/-- The fragment is exactly a vector object `v` (of value type `ty` with callbacks `T ty`, described by `e`) holding the values `ws` in storage block
`b` with capacity `cap`: constructed elements in the first slots, raw slots behind them. -/
def isVec (e : ElemSpec nf (T ty) W) (v b cap : Nat) (ws : List W) : HProp V :=
  vhdr v b ws.length cap ty ∗ ⌜ws.length ≤ cap⌝ ∗ live e b 1 ws ∗ raws b (1 + ws.length) (cap - ws.length)

/-- A value argument: NULL stands for the default value, other references must designate a constructed element outside the vector. -/
def arg {o : Ops V} (e : ElemSpec nf o W) (value : Loc) (w : W) : HProp V :=
  if value.1 = 0 then ⌜w = e.dflt⌝ else cell e value w

theorem arg_null {o : Ops V} {e : ElemSpec nf o W} {value : Loc} {w : W} (h : value.1 = 0) : arg e value w = ⌜w = e.dflt⌝ := if_pos h
theorem arg_cell {o : Ops V} {e : ElemSpec nf o W} {value : Loc} {w : W} (h : value.1 ≠ 0) : arg e value w = cell e value w := if_neg h

variable {o : Ops V} {e : ElemSpec nf o W}

theorem destroyLoop_spec {b i j : Nat} {ws : List W} (hj : j = i + ws.length) :
    Triple nf (live e b i ws) (destroyLoop o (b, i) (b, j)) (fun _ => raws b i ws.length) := by
  subst hj
  induction ws generalizing i with
  | nil =>
    rw [destroyLoop, if_neg (by simp)]
    apply Triple.ret
    exact ent_refl _
  | cons w ws ih =>
    rw [destroyLoop, if_pos (by simp)]
    rw [live_cons]
    call (destroyCell_spec (e := e) (l := (b, i)) (w := w))
    intro _
    have := ih (i := i + 1)
    rw [show i + 1 + ws.length = i + (w :: ws).length by simp; omega] at this
    simp only [padd]
    call this
    intro _
    rw [List.length_cons, raws_succ]
    cancel

theorem fill_spec {b i n : Nat} {value : Loc} {w : W} :
    Triple nf (arg e value w ∗ raws b i n) (fill o (b, i) n value) (fun _ => arg e value w ∗ live e b i (List.replicate n w)) := by
  induction n generalizing i with
  | zero =>
    rw [fill]
    apply Triple.ret
    exact ent_refl _
  | succ n ih =>
    rw [fill, raws_succ]
    have hstep : Triple nf (arg e value w ∗ ∃ₛ y, pts (b, i) y) (put o (b, i) value)
        (fun _ => arg e value w ∗ cell e (b, i) w) := by
      unfold put
      by_cases hv : value.1 = 0
      · rw [if_neg (by simpa using hv), arg_null hv]
        apply Triple.pure_left
        rintro rfl
        refine Triple.post (createCell_spec (e := e)) ?_
        intro _
        cancel
      · rw [if_pos hv, arg_cell hv]
        exact copyCell_spec
    call hstep
    intro _
    simp only [padd]
    call (ih (i := i + 1))
    intro _
    rw [List.replicate_succ, live_cons]
    cancel

theorem psub_spec {b i j : Nat} {P : HProp V} {Q : β → HProp V} {k : Nat → M V β} (h : j ≤ i)
    (hk : Triple nf P (k (i - j)) Q) : Triple nf P (psub (b, i) (b, j) >>= k) Q := by
  unfold psub
  rw [if_pos ⟨rfl, h⟩]
  step
  exact hk

theorem psub_spec' {b i j : Nat} {P : HProp V} (h : j ≤ i) :
    Triple nf P (psub (b, i) (b, j)) (fun r => ⌜r = i - j⌝ ∗ P) := by
  unfold psub
  rw [if_pos ⟨rfl, h⟩]
  apply Triple.ret
  cancel

theorem pminus_spec {b i n : Nat} {P : HProp V} {Q : β → HProp V} {k : Loc → M V β} (h : n < i)
    (hk : Triple nf P (k (b, i - n)) Q) : Triple nf P (pminus (b, i) n >>= k) Q := by
  unfold pminus
  rw [if_pos h]
  step
  exact hk

theorem pminus_spec' {b i n : Nat} {P : HProp V} (h : n < i) :
    Triple nf P (pminus (b, i) n) (fun r => ⌜r = (b, i - n)⌝ ∗ P) := by
  unfold pminus
  rw [if_pos h]
  apply Triple.ret
  cancel

theorem buf_zero {cap : Nat} : buf (V := V) 0 cap = ⌜cap = 0⌝ := if_pos rfl
theorem buf_ne {b cap : Nat} (h : b ≠ 0) : buf (V := V) b cap = blk b cap := if_neg h

theorem freeStorage_spec {b cap : Nat} :
    Triple (V := V) nf (buf b cap ∗ raws b 1 cap) (freeStorage (b, 1)) (fun _ => emp) := by
  unfold freeStorage
  by_cases hb : b = 0
  · subst hb
    rw [if_pos rfl, buf_zero]
    apply Triple.pure_left
    rintro rfl
    apply Triple.ret
    exact ent_refl _
  · rw [if_neg hb, if_pos rfl, buf_ne hb]
    exact freeBlock_spec

theorem mallocS4 {P : HProp V} {Q : β → HProp V} {k : Addr → M V β} (hfail : ¬ nf → Triple nf P (k 0) Q)
    (hok : ∀ a x y z w, a ≠ 0 → Triple nf (blk a 4 ∗ fld a 1 x ∗ fld a 2 y ∗ fld a 3 z ∗ fld a 4 w ∗ P) (k a) Q) :
    Triple nf P (mallocS 4 >>= k) Q :=
  Triple.mallocG_spec hfail fun a j h => by
    simpa [arr, List.range_succ, sep_assoc] using hok a (j 1) (j 2) (j 3) (j 4) h

theorem free4 {a : Addr} {u v w x : Val V} :
    Triple nf (blk a 4 ∗ pts (a,1) u ∗ pts (a,2) v ∗ pts (a,3) w ∗ pts (a,4) x) (free a) (fun _ => emp) := by
  have := Triple.free_spec (nf := nf) (P := emp) (Q := fun _ => emp) (n := 4) (a := a) (vs := [u,v,w,x]) (k := fun _ => pure ()) rfl
    (Triple.ret (ent_refl _))
  simpa [arr] using this

theorem hdr_ne {v b n cap ty : Nat} {P : HProp V} {h : Heap V} (hh : (vhdr v b n cap ty ∗ P) h) : v ≠ 0 := by
  unfold vhdr at hh
  rw [sep_assoc] at hh
  exact pts_ne_zero hh

end CC.Vec
