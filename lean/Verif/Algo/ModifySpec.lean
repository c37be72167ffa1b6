import Verif.Algo.Modify
import Verif.Algo.NonModSpec2
import Verif.Spec.Rearrange
/-!
# Proofs for `c_modifying.c`: algorithms that write to a destination range
-/
namespace CC.Algo
open CC CC.Tac
variable {V : Type} {nf : Prop} {P : HProp V} {c d : Slots} {i j : Nat} {vs us : List V}

theorem asg_pts {R : HProp V} {dst src : Loc} {u v : V} (hs : Reads (pts dst (.obj (some u)) ∗ R) src v) :
    Triple nf (pts dst (.obj (some u)) ∗ R) (asg dst src) (fun _ => pts dst (.obj (some v)) ∗ R) := by
  unfold asg
  refine ldV_reads hs ?_
  call (wr_pts (l := dst) (v := u) (w := v))
  intro _
  cancel

/-- assignment of the value at `src` to the first element of a destination range, anywhere in a program -/
theorem asg_seg {P : HProp V} {src : Loc} {u v : V} {β : Type} {Q : β → HProp V} {K : Unit → M V β} (hs : Reads P src v)
    (ht : Triple nf ((P ∗ pts (d j) (.obj (some v))) ∗ seg d (j + 1) us) (K ()) Q) :
    Triple nf (P ∗ seg d j (u :: us)) (asg (d j) src >>= K) Q := by
  refine Triple.bind (Q := fun _ => (P ∗ pts (d j) (.obj (some v))) ∗ seg d (j + 1) us) ?_ (fun _ => ht)
  refine Triple.pre (P' := pts (d j) (.obj (some u)) ∗ P ∗ seg d (j + 1) us) (by rw [seg_cons]; cancel) ?_
  refine Triple.post (asg_pts hs.left.right) ?_
  intro _
  cancel

/-- a condition on elements evaluated by a call in the context of `R0`: it is `q` of the value, and nothing changes -/
def CondOn (nf : Prop) (R0 : HProp V) (cond : Nat → M V Bool) (c : Slots) (q : V → Bool) : Prop :=
  ∀ (R : HProp V) k v, Reads (R0 ∗ R) (c k) v → ∀ {β : Type} {Q : β → HProp V} {K : Bool → M V β},
    Triple nf (R0 ∗ R) (K (q v)) Q → Triple nf (R0 ∗ R) (cond k >>= K) Q

theorem CondOn.test {pred : V → Bool} : CondOn nf P (fun i => test pred (c i)) c pred := fun _ _ _ hr {_ _ _} ht => test_reads hr ht
theorem CondOn.cmp {eq : V → V → Bool} {value : Loc} {w : V} (hw : Reads P value w) : CondOn nf P (fun i => cmp eq (c i) value) c (fun v => eq v w) :=
  fun _ _ _ hr {_ _ _} ht => cmp_reads hr hw.left ht
theorem CondOn.not {cond : Nat → M V Bool} {q : V → Bool} (h : CondOn nf P cond c q) : CondOn nf P (fun i => do pure (!(← cond i))) c (fun v => !q v) := by
  intro R k v hr β Q K ht
  simp only [bind_assoc, pure_bind]
  exact h R k v hr ht
theorem CondOn.frame {cond : Nat → M V Bool} {q : V → Bool} {R1 : HProp V} (h : CondOn nf P cond c q) : CondOn nf (P ∗ R1) cond c q := by
  intro R k v hr β Q K ht
  rw [sep_assoc] at hr ht ⊢
  exact h _ k v hr ht

theorem copyLoop_spec {n : Nat} (h : Rng P c i vs) (hl : vs.length ≤ us.length) :
    Triple nf (P ∗ seg d j us) (copyLoop c d i (i + vs.length) j n) (fun r => ⌜r = (n + vs.length, j + vs.length)⌝ ∗ P ∗ seg d j (over us vs)) := by
  induction vs generalizing i j us n P with
  | nil =>
    rw [copyLoop, if_neg (by simp)]
    apply Triple.ret
    simp [over]
    cancel
  | cons v vs ih =>
    cases us with
    | nil => simp at hl
    | cons u us =>
      rw [copyLoop, if_pos (by simp)]
      refine asg_seg h.head ?_
      rw [show i + (v :: vs).length = i + 1 + vs.length by simp; omega]
      refine Triple.post (ih (P := P ∗ pts (d j) (.obj (some v))) h.tail.left (by simpa using hl)) ?_
      intro r
      xintro hr
      simp only [over, List.cons_append, seg_cons, List.length_cons, List.drop_succ_cons]
      cancel
      rw [hr]; ext <;> simp <;> omega

theorem copy_spec (h : Rng P c i vs) (hl : vs.length ≤ us.length) :
    Triple nf (P ∗ seg d j us) (copy c i (i + vs.length) d j) (fun r => ⌜r = (vs.length, j + vs.length)⌝ ∗ P ∗ seg d j (over us vs)) := by
  have := copyLoop_spec (nf := nf) (n := 0) (j := j) (d := d) h hl
  rw [Nat.zero_add] at this
  exact this

theorem copyIfLoop_spec {cond : Nat → M V Bool} {q : V → Bool} {n : Nat} (hc : CondOn nf P cond c q) (h : Rng P c i vs) (hl : (vs.filter q).length ≤ us.length) :
    Triple nf (P ∗ seg d j us) (copyIfLoop cond c d i (i + vs.length) j n)
      (fun r => ⌜r = (n + (vs.filter q).length, j + (vs.filter q).length)⌝ ∗ P ∗ seg d j (over us (vs.filter q))) := by
  induction vs generalizing i j us n P with
  | nil =>
    rw [copyIfLoop, if_neg (by simp)]
    apply Triple.ret
    simp [over]
    cancel
  | cons v vs ih =>
    rw [copyIfLoop, if_pos (by simp)]
    refine hc _ i v h.head.left ?_
    rw [show i + (v :: vs).length = i + 1 + vs.length by simp; omega]
    by_cases hq : q v = true
    · rw [if_pos hq]
      rw [List.filter_cons_of_pos hq] at hl ⊢
      cases us with
      | nil => simp at hl
      | cons u us =>
        refine asg_seg h.head ?_
        refine Triple.post (ih (P := P ∗ pts (d j) (.obj (some v))) hc.frame h.tail.left (by simpa using hl)) ?_
        intro r
        xintro hr
        simp only [over, List.cons_append, seg_cons, List.length_cons, List.drop_succ_cons]
        cancel
        rw [hr]; ext <;> simp <;> omega
    · rw [if_neg hq]
      rw [List.filter_cons_of_neg hq] at hl ⊢
      exact ih hc h.tail hl

theorem copyIf_spec {pred : V → Bool} (h : Rng P c i vs) (hl : (vs.filter pred).length ≤ us.length) :
    Triple nf (P ∗ seg d j us) (copyIf c i (i + vs.length) d j pred)
      (fun r => ⌜r = ((vs.filter pred).length, j + (vs.filter pred).length)⌝ ∗ P ∗ seg d j (over us (vs.filter pred))) := by
  have := copyIfLoop_spec (nf := nf) (n := 0) (j := j) (d := d) CondOn.test h hl
  rw [Nat.zero_add] at this
  exact this

theorem removeCopy_spec {eq : V → V → Bool} {value : Loc} {w : V} (h : Rng P c i vs) (hw : Reads P value w) (hl : (vs.filter fun v => !eq v w).length ≤ us.length) :
    Triple nf (P ∗ seg d j us) (removeCopy c i (i + vs.length) d j value eq)
      (fun r => ⌜r = ((vs.filter fun v => !eq v w).length, j + (vs.filter fun v => !eq v w).length)⌝ ∗ P ∗ seg d j (over us (vs.filter fun v => !eq v w))) := by
  have := copyIfLoop_spec (nf := nf) (n := 0) (j := j) (d := d) (CondOn.cmp (eq := eq) (c := c) hw).not h hl
  rw [Nat.zero_add] at this
  exact this

theorem removeCopyIf_spec {pred : V → Bool} (h : Rng P c i vs) (hl : (vs.filter fun v => !pred v).length ≤ us.length) :
    Triple nf (P ∗ seg d j us) (removeCopyIf c i (i + vs.length) d j pred)
      (fun r => ⌜r = ((vs.filter fun v => !pred v).length, j + (vs.filter fun v => !pred v).length)⌝ ∗ P ∗ seg d j (over us (vs.filter fun v => !pred v))) := by
  have := copyIfLoop_spec (nf := nf) (n := 0) (j := j) (d := d) (CondOn.test (pred := pred) (c := c)).not h hl
  rw [Nat.zero_add] at this
  exact this

theorem replaceCopyLoop_spec {cond : Nat → M V Bool} {q : V → Bool} {new : Loc} {x : V} {n : Nat} (hc : CondOn nf P cond c q) (h : Rng P c i vs) (hx : Reads P new x)
    (hl : vs.length ≤ us.length) :
    Triple nf (P ∗ seg d j us) (replaceCopyLoop cond c d new i (i + vs.length) j n)
      (fun r => ⌜r = (n + vs.length, j + vs.length)⌝ ∗ P ∗ seg d j (over us (vs.map fun v => if q v then x else v))) := by
  induction vs generalizing i j us n P with
  | nil =>
    rw [replaceCopyLoop, if_neg (by simp)]
    apply Triple.ret
    simp [over]
    cancel
  | cons v vs ih =>
    cases us with
    | nil => simp at hl
    | cons u us =>
      rw [replaceCopyLoop, if_pos (by simp)]
      refine hc _ i v h.head.left ?_
      have hs : Reads P (if q v then new else c i) (if q v then x else v) := by
        split
        · exact hx
        · exact h.head
      refine asg_seg hs ?_
      rw [show i + (v :: vs).length = i + 1 + vs.length by simp; omega]
      refine Triple.post (ih (P := P ∗ pts (d j) (.obj (some (if q v then x else v)))) hc.frame h.tail.left hx.left (by simpa using hl)) ?_
      intro r
      xintro hr
      simp only [over, List.map_cons, List.cons_append, seg_cons, List.length_cons, List.drop_succ_cons]
      cancel
      rw [hr]; ext <;> simp <;> omega

theorem replaceCopy_spec {eq : V → V → Bool} {old new : Loc} {w x : V} (h : Rng P c i vs) (hw : Reads P old w) (hx : Reads P new x) (hl : vs.length ≤ us.length) :
    Triple nf (P ∗ seg d j us) (replaceCopy c i (i + vs.length) d j old new eq)
      (fun r => ⌜r = (vs.length, j + vs.length)⌝ ∗ P ∗ seg d j (over us (vs.map fun v => if eq v w then x else v))) := by
  have := replaceCopyLoop_spec (nf := nf) (n := 0) (j := j) (d := d) (CondOn.cmp (eq := eq) (c := c) hw) h hx hl
  rw [Nat.zero_add] at this
  exact this

theorem replaceCopyIf_spec {pred : V → Bool} {new : Loc} {x : V} (h : Rng P c i vs) (hx : Reads P new x) (hl : vs.length ≤ us.length) :
    Triple nf (P ∗ seg d j us) (replaceCopyIf c i (i + vs.length) d j pred new)
      (fun r => ⌜r = (vs.length, j + vs.length)⌝ ∗ P ∗ seg d j (over us (vs.map fun v => if pred v then x else v))) := by
  have := replaceCopyLoop_spec (nf := nf) (n := 0) (j := j) (d := d) (CondOn.test (pred := pred) (c := c)) h hx hl
  rw [Nat.zero_add] at this
  exact this

theorem reverseCopyLoop_spec {n : Nat} (h : Rng P c i vs) (hl : vs.length ≤ us.length) :
    Triple nf (P ∗ seg d j us) (reverseCopyLoop c d i (i + vs.length) j n) (fun r => ⌜r = (n + vs.length, j + vs.length)⌝ ∗ P ∗ seg d j (over us vs.reverse)) := by
  induction hv : vs.reverse generalizing vs j us n P with
  | nil =>
    obtain rfl : vs = [] := by simpa using hv
    rw [reverseCopyLoop, if_neg (by simp)]
    apply Triple.ret
    simp [over]
    cancel
  | cons v ws ih =>
    obtain rfl : vs = ws.reverse ++ [v] := by rw [← List.reverse_reverse vs, hv, List.reverse_cons]
    cases us with
    | nil => simp at hl
    | cons u us =>
      have hlen : (ws.reverse ++ [v]).length = ws.length + 1 := by simp
      rw [reverseCopyLoop, if_pos (by omega), hlen, ← Nat.add_assoc]
      refine dec_spec ?_
      have hr : Reads P (c (i + ws.length)) v := by
        have := h ws.length (by simp)
        simpa using this
      refine asg_seg hr ?_
      have hp := h.prefix ws.length
      rw [List.take_left' (by simp)] at hp
      have := ih (vs := ws.reverse) (j := j + 1) (us := us) (n := n + 1) (P := P ∗ pts (d j) (.obj (some v))) hp.left (by simp at hl ⊢; omega) (by simp)
      rw [List.length_reverse] at this
      refine Triple.post this ?_
      intro r
      xintro hr
      simp only [over, List.cons_append, seg_cons, List.length_cons, List.drop_succ_cons]
      cancel
      rw [hr]; ext <;> simp <;> omega

theorem reverseCopy_spec (h : Rng P c i vs) (hl : vs.length ≤ us.length) :
    Triple nf (P ∗ seg d j us) (reverseCopy c i (i + vs.length) d j) (fun r => ⌜r = (vs.length, j + vs.length)⌝ ∗ P ∗ seg d j (over us vs.reverse)) := by
  have := reverseCopyLoop_spec (nf := nf) (n := 0) (j := j) (d := d) h hl
  rw [Nat.zero_add] at this
  exact this

theorem rotateCopy_spec {xs ys : List V} (h : Rng P c i (xs ++ ys)) (hl : xs.length + ys.length ≤ us.length) :
    Triple nf (P ∗ seg d j us) (rotateCopy c i (i + xs.length) (i + xs.length + ys.length) d j)
      (fun r => ⌜r = (xs.length + ys.length, j + xs.length + ys.length)⌝ ∗ P ∗ seg d j (over us (ys ++ xs))) := by
  unfold rotateCopy
  have h1 := h.drop xs.length
  rw [List.drop_left' rfl] at h1
  have h2 := h.prefix xs.length
  rw [List.take_left' rfl] at h2
  obtain ⟨u1, u2, rfl, hu⟩ : ∃ u1 u2, us = u1 ++ u2 ∧ u1.length = ys.length := ⟨us.take ys.length, us.drop ys.length, by simp, by simp; omega⟩
  simp only [List.length_append] at hl
  have c1 := copy_spec (nf := nf) (d := d) (j := j) (us := u1) h1 (by omega)
  have c2 := copy_spec (nf := nf) (P := P ∗ seg d j ys) (d := d) (j := j + ys.length) (us := u2) h2.left (by omega)
  rw [seg_append, hu]
  refine Triple.bind (Q := fun r => ⌜r = (ys.length, j + ys.length)⌝ ∗ (P ∗ seg d j ys) ∗ seg d (j + ys.length) u2) ?_ ?_
  · call c1
    intro r
    xintro hr
    rw [over, List.drop_of_length_le (by omega), List.append_nil]
    cancel
  · intro r
    xintro hr
    subst hr
    dsimp only
    rw [← sep_assoc]
    refine Triple.bind c2 ?_
    intro r
    xintro hr
    subst hr
    apply Triple.ret
    simp only [over]
    rw [List.append_assoc, seg_append (xs := ys)]
    rw [show List.drop (ys ++ xs).length (u1 ++ u2) = List.drop xs.length u2 by rw [List.length_append, ← List.drop_drop, ← hu, List.drop_left' rfl]]
    simp only [seg_append]
    cancel
    ext <;> simp <;> omega

theorem fillLoop_spec {value : Loc} {w : V} {n : Nat} (hw : Reads P value w) :
    Triple nf (P ∗ seg c i us) (fillLoop c value i (i + us.length) n) (fun r => ⌜r = n + us.length⌝ ∗ P ∗ seg c i (List.replicate us.length w)) := by
  induction us generalizing i n P with
  | nil =>
    rw [fillLoop, if_neg (by simp)]
    apply Triple.ret
    simp
    cancel
  | cons u us ih =>
    rw [fillLoop, if_pos (by simp)]
    refine asg_seg hw ?_
    rw [show i + (u :: us).length = i + 1 + us.length by simp; omega]
    refine Triple.post (ih (P := P ∗ pts (c i) (.obj (some w))) hw.left) ?_
    intro r
    xintro hr
    simp only [List.length_cons, List.replicate_succ, seg_cons]
    cancel
    omega

theorem fill_spec {value : Loc} {w : V} (hw : Reads P value w) :
    Triple nf (P ∗ seg c i us) (fill c i (i + us.length) value) (fun r => ⌜r = us.length⌝ ∗ P ∗ seg c i (List.replicate us.length w)) := by
  have := fillLoop_spec (nf := nf) (n := 0) (i := i) (c := c) (us := us) hw
  rw [Nat.zero_add] at this
  exact this

theorem fillN_spec {value : Loc} {w : V} (hw : Reads P value w) :
    Triple nf (P ∗ seg c i us) (fillN c i us.length value) (fun r => ⌜r = i + us.length⌝ ∗ P ∗ seg c i (List.replicate us.length w)) := by
  induction us generalizing i P with
  | nil =>
    rw [List.length_nil, fillN]
    apply Triple.ret
    simp
    cancel
  | cons u us ih =>
    rw [List.length_cons, fillN]
    refine asg_seg hw ?_
    refine Triple.post (ih (P := P ∗ pts (c i) (.obj (some w))) hw.left) ?_
    intro r
    xintro hr
    simp only [List.replicate_succ, seg_cons]
    cancel
    omega

theorem transformLoop_spec {op : V → V} {n : Nat} (h : Rng P c i vs) (hl : vs.length ≤ us.length) :
    Triple nf (P ∗ seg d j us) (transformLoop c d op i (i + vs.length) j n) (fun r => ⌜r = n + vs.length⌝ ∗ P ∗ seg d j (over us (vs.map op))) := by
  induction vs generalizing i j us n P with
  | nil =>
    rw [transformLoop, if_neg (by simp)]
    apply Triple.ret
    simp [over]
    cancel
  | cons v vs ih =>
    cases us with
    | nil => simp at hl
    | cons u us =>
      rw [transformLoop, if_pos (by simp)]
      refine ldV_reads h.head.left ?_
      rw [seg_cons]
      call (wr_pts (l := d j) (v := u) (w := op v))
      intro _
      rw [show i + (v :: vs).length = i + 1 + vs.length by simp; omega]
      call (ih (P := P ∗ pts (d j) (.obj (some (op v)))) (i := i + 1) (j := j + 1) (us := us) (n := n + 1) h.tail.left (by simpa using hl))
      intro r
      xintro hr
      simp only [over, List.map_cons, List.cons_append, seg_cons, List.length_cons, List.drop_succ_cons]
      cancel
      omega

theorem transform_spec {op : V → V} (h : Rng P c i vs) (hl : vs.length ≤ us.length) :
    Triple nf (P ∗ seg d j us) (transform c i (i + vs.length) d j op) (fun r => ⌜r = vs.length⌝ ∗ P ∗ seg d j (over us (vs.map op))) := by
  have := transformLoop_spec (nf := nf) (n := 0) (j := j) (d := d) (op := op) h hl
  rw [Nat.zero_add] at this
  exact this

/-- in place -/
theorem transformLoop_self {op : V → V} {n : Nat} :
    Triple nf (seg c i vs) (transformLoop c c op i (i + vs.length) i n) (fun r => ⌜r = n + vs.length⌝ ∗ seg c i (vs.map op)) := by
  induction vs generalizing i n with
  | nil =>
    rw [transformLoop, if_neg (by simp)]
    apply Triple.ret
    cancel
  | cons v vs ih =>
    rw [transformLoop, if_pos (by simp)]
    refine ldV_reads seg_rng.head ?_
    rw [seg_cons]
    call (wr_pts (l := c i) (v := v) (w := op v))
    intro _
    rw [show i + (v :: vs).length = i + 1 + vs.length by simp; omega]
    call (ih (i := i + 1) (n := n + 1))
    intro r
    xintro hr
    rw [List.map_cons, seg_cons]
    cancel
    simp; omega

end CC.Algo
