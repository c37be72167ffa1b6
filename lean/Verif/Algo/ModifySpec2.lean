import Verif.Algo.ModifySpec
/-!
# Proofs for `c_modifying.c`: algorithms that work in place
-/
namespace CC.Algo
open CC CC.Tac
variable {V : Type} {nf : Prop} {P : HProp V} {c d : Slots} {i j : Nat} {vs us : List V}

theorem swp_pts {x y : Loc} {a b : V} : Triple nf (pts x (.obj (some a)) ∗ pts y (.obj (some b))) (swp x y) (fun _ => pts x (.obj (some b)) ∗ pts y (.obj (some a))) := by
  unfold swp
  refine ldV_reads Reads.pts.left ?_
  refine Triple.bind (asg_pts Reads.pts.right) ?_
  intro _
  call (wr_pts (l := y) (v := b) (w := a))
  intro _
  cancel

theorem swp_seg {k l : Nat} (hk : k < vs.length) (hl : l < vs.length) :
    Triple nf (seg c i vs) (swp (c (i + k)) (c (i + l))) (fun _ => seg c i ((vs.set k vs[l]).set l vs[k])) := by
  unfold swp asg
  refine rd seg_rng hk ?_
  simp only [bind_assoc]
  refine rd seg_rng hl ?_
  refine Triple.bind (wr_seg hk) ?_
  intro _
  exact wr_seg (by simpa using hl)

/-- copying to the left within one range, overlapping or not -/
theorem copyLoop_left {X : List V} {n : Nat} :
    Triple nf (seg c i (X ++ vs)) (copyLoop c c (i + X.length) (i + X.length + vs.length) i n)
      (fun r => ⌜r = (n + vs.length, i + vs.length)⌝ ∗ seg c i (over (X ++ vs) vs)) := by
  induction vs generalizing i X n with
  | nil =>
    rw [copyLoop, if_neg (by simp)]
    apply Triple.ret
    simp [over]
    cancel
  | cons v vs ih =>
    rw [copyLoop, if_pos (by simp)]
    have hread : Reads (seg c i (X ++ v :: vs)) (c (i + X.length)) v := by
      have := (seg_rng (c := c) (i := i) (vs := X ++ v :: vs)) X.length (by simp)
      simpa using this
    obtain ⟨x, Y, hXY⟩ : ∃ x Y, X ++ v :: vs = x :: Y := by cases X <;> simp
    rw [hXY] at hread ⊢
    rw [seg_cons] at hread ⊢
    refine Triple.bind (asg_pts hread) ?_
    intro _
    have hY : Y = (X ++ [v]).tail ++ vs := by cases X <;> simp_all
    have hlen : (X ++ [v]).tail.length = X.length := by simp
    have := ih (i := i + 1) (X := (X ++ [v]).tail) (n := n + 1)
    rw [← hY, hlen] at this
    rw [show i + X.length + (v :: vs).length = i + 1 + X.length + vs.length by simp; omega, show i + X.length + 1 = i + 1 + X.length by omega]
    call this
    intro r
    xintro hr
    simp only [over, List.cons_append, seg_cons, List.length_cons, List.drop_succ_cons]
    cancel
    rw [hr]; ext <;> simp <;> omega

/-- copying backward to a disjoint range -/
theorem copyBackwardLoop_spec {n : Nat} (h : Rng P c i vs) (hl : vs.length ≤ us.length) :
    Triple nf (P ∗ seg d j us) (copyBackwardLoop c d i (i + vs.length) (j + us.length) n)
      (fun r => ⌜r = (n + vs.length, j + (us.length - vs.length))⌝ ∗ P ∗ seg d j (overBack us vs)) := by
  induction hv : vs.reverse generalizing vs us n P with
  | nil =>
    obtain rfl : vs = [] := by simpa using hv
    rw [copyBackwardLoop, if_neg (by simp)]
    apply Triple.ret
    simp [overBack]
    cancel
  | cons v ws ih =>
    obtain rfl : vs = ws.reverse ++ [v] := by rw [← List.reverse_reverse vs, hv, List.reverse_cons]
    obtain ⟨us, u, rfl⟩ : ∃ us' u, us = us' ++ [u] := by
      cases hu : us.reverse with
      | nil => simp at hu; subst hu; simp at hl
      | cons u us' => exact ⟨us'.reverse, u, by rw [← List.reverse_reverse us, hu, List.reverse_cons]⟩
    have hlen : (ws.reverse ++ [v]).length = ws.length + 1 := by simp
    rw [copyBackwardLoop, if_pos (by omega), hlen, ← Nat.add_assoc]
    refine dec_spec ?_
    rw [List.length_append, List.length_cons, List.length_nil, ← Nat.add_assoc]
    refine dec_spec ?_
    have hr : Reads P (c (i + ws.length)) v := by
      have := h ws.length (by simp)
      simpa using this
    rw [seg_append, seg_one]
    refine Triple.bind (Q := fun _ => (P ∗ pts (d (j + us.length)) (.obj (some v))) ∗ seg d j us) ?_ ?_
    · refine Triple.pre (P' := pts (d (j + us.length)) (.obj (some u)) ∗ P ∗ seg d j us) (by cancel) ?_
      refine Triple.post (asg_pts hr.left.right) ?_
      intro _
      cancel
    intro _
    have hp := h.prefix ws.length
    rw [List.take_left' (by simp)] at hp
    have := ih (vs := ws.reverse) (us := us) (n := n + 1) (P := P ∗ pts (d (j + us.length)) (.obj (some v))) hp.left (by simp at hl ⊢; omega) (by simp)
    rw [List.length_reverse] at this
    refine Triple.post this ?_
    intro r
    xintro hr
    have hle : ws.length ≤ us.length := by simp at hl; omega
    simp only [overBack, List.length_append, List.length_reverse, List.length_cons, List.length_nil]
    rw [List.take_append_of_le_length (by omega), ← List.append_assoc, seg_append (ys := [v]), seg_one,
      show us.length + (0 + 1) - (ws.length + (0 + 1)) = us.length - ws.length by omega]
    rw [show j + (List.take (us.length - ws.length) us ++ ws.reverse).length = j + us.length by simp; omega]
    cancel
    rw [hr]; ext <;> simp <;> omega

/-- copying backward to the right within one range, overlapping or not -/
theorem copyBackwardLoop_right {X : List V} {n : Nat} :
    Triple nf (seg c i (vs ++ X)) (copyBackwardLoop c c i (i + vs.length) (i + vs.length + X.length) n)
      (fun r => ⌜r = (n + vs.length, i + X.length)⌝ ∗ seg c i (overBack (vs ++ X) vs)) := by
  induction hv : vs.reverse generalizing vs X n with
  | nil =>
    obtain rfl : vs = [] := by simpa using hv
    rw [copyBackwardLoop, if_neg (by simp)]
    apply Triple.ret
    simp [overBack]
    cancel
  | cons v ws ih =>
    obtain rfl : vs = ws.reverse ++ [v] := by rw [← List.reverse_reverse vs, hv, List.reverse_cons]
    have hlen : (ws.reverse ++ [v]).length = ws.length + 1 := by simp
    rw [copyBackwardLoop, if_pos (by omega), hlen, ← Nat.add_assoc]
    refine dec_spec ?_
    rw [show i + ws.length + 1 + X.length = i + ws.length + X.length + 1 by omega]
    refine dec_spec ?_
    obtain ⟨Y, y, hXY⟩ : ∃ Y y, ws.reverse ++ [v] ++ X = Y ++ [y] := by
      cases hu : X.reverse with
      | nil => simp at hu; subst hu; exact ⟨ws.reverse, v, by simp⟩
      | cons u us' => exact ⟨ws.reverse ++ [v] ++ us'.reverse, u, by rw [← List.reverse_reverse X, hu, List.reverse_cons]; simp⟩
    have hread : Reads (seg c i (ws.reverse ++ [v] ++ X)) (c (i + ws.length)) v := by
      have := (seg_rng (c := c) (i := i) (vs := ws.reverse ++ [v] ++ X)) ws.length (by simp)
      simpa [List.getElem_append] using this
    have hYl : Y.length = ws.length + X.length := by have := congrArg List.length hXY; simp at this; omega
    have hY : Y = ws.reverse ++ (v :: X).dropLast := by
      have := congrArg List.dropLast hXY
      rw [List.dropLast_concat, List.append_assoc, List.dropLast_append_of_ne_nil (by simp)] at this
      exact this.symm
    rw [hXY] at hread ⊢
    rw [seg_append, seg_one, hYl, ← Nat.add_assoc, sep_comm] at hread ⊢
    refine Triple.bind (asg_pts hread) ?_
    intro _
    have := ih (vs := ws.reverse) (X := (v :: X).dropLast) (n := n + 1) (by simp)
    rw [← hY, List.length_dropLast, List.length_cons, Nat.add_sub_cancel, List.length_reverse] at this
    call this
    intro r
    xintro hr
    have hle : (Y ++ [y]).length - (ws.reverse ++ [v]).length = X.length := by simp; omega
    have hle2 : Y.length - ws.reverse.length = X.length := by simp; omega
    simp only [overBack]
    rw [hle, hle2, List.take_append_of_le_length (by omega), ← List.append_assoc, seg_append (ys := [v]), seg_one]
    rw [show i + (List.take X.length Y ++ ws.reverse).length = i + ws.length + X.length by simp; omega]
    cancel
    rw [hr]; ext <;> simp <;> omega

/-- contents of the temporary after `m` calls of the generator -/
def tmpGen (x : Val V) (gen : Nat → V) (n m : Nat) : Val V := if m = 0 then x else .obj (some (gen (n + m - 1)))

theorem tmpGen_succ {x : Val V} {gen : Nat → V} {n m : Nat} : tmpGen (.obj (some (gen n))) gen (n + 1) m = tmpGen x gen n (m + 1) := by
  unfold tmpGen
  rw [if_neg (by omega : m + 1 ≠ 0)]
  split
  · subst_vars; rfl
  · rw [show n + 1 + m - 1 = n + (m + 1) - 1 by omega]

theorem generateLoop_spec {gen : Nat → V} {t : Addr} {x : Val V} {n : Nat} :
    Triple nf (pts (t, 1) x ∗ seg c i us) (generateLoop c gen t i (i + us.length) n)
      (fun r => ⌜r = n + us.length⌝ ∗ seg c i ((List.range' n us.length).map gen) ∗
        pts (t, 1) (tmpGen x gen n us.length)) := by
  induction us generalizing i n x with
  | nil =>
    rw [generateLoop, if_neg (by simp)]
    apply Triple.ret
    simp [tmpGen]
    cancel
  | cons u us ih =>
    rw [generateLoop, if_pos (by simp), seg_cons]
    steps
    rw [show i + (u :: us).length = i + 1 + us.length by simp; omega]
    refine Triple.bind (Q := fun _ => pts (t, 1) (.obj (some (gen n))) ∗ pts (c i) (.obj (some (gen n))) ∗ seg c (i + 1) us) ?_ ?_
    · refine Triple.pre (P' := pts (c i) (.obj (some u)) ∗ pts (t, 1) (.obj (some (gen n))) ∗ seg c (i + 1) us) (by cancel) ?_
      refine Triple.post (asg_pts Reads.pts.left.right) ?_
      intro _
      cancel
    intro _
    call (ih (i := i + 1) (n := n + 1) (x := .obj (some (gen n))))
    intro r
    xintro hr
    rw [List.length_cons, List.range'_succ, List.map_cons, seg_cons]
    rw [tmpGen_succ (x := x)]
    cancel
    omega

theorem generate_spec {gen : Nat → V} (hne : us ≠ []) :
    Triple True (seg c i us) (generate c i (i + us.length) gen) (fun r => ⌜r = us.length⌝ ∗ seg c i ((List.range us.length).map gen)) := by
  unfold generate
  apply mallocO1
  · intro h; exact absurd trivial h
  intro t ht
  rw [if_neg ht]
  call (generateLoop_spec (nf := True) (c := c) (i := i) (us := us) (gen := gen) (t := t) (x := .obj none) (n := 0))
  intro r
  xintro hr
  rw [tmpGen, if_neg (by cases us <;> simp_all)]
  steps
  call (freeV1 (a := t))
  intro _
  apply Triple.ret
  rw [← List.range_eq_range']
  cancel
  omega

theorem generateNLoop_spec {gen : Nat → V} {t : Addr} {x : Val V} {n : Nat} :
    Triple nf (pts (t, 1) x ∗ seg c i us) (generateNLoop c gen t i n us.length)
      (fun r => ⌜r = i + us.length⌝ ∗ seg c i ((List.range' n us.length).map gen) ∗
        pts (t, 1) (tmpGen x gen n us.length)) := by
  induction us generalizing i n x with
  | nil =>
    rw [List.length_nil, generateNLoop]
    apply Triple.ret
    simp [tmpGen]
    cancel
  | cons u us ih =>
    rw [List.length_cons, generateNLoop, seg_cons]
    steps
    refine Triple.bind (Q := fun _ => pts (t, 1) (.obj (some (gen n))) ∗ pts (c i) (.obj (some (gen n))) ∗ seg c (i + 1) us) ?_ ?_
    · refine Triple.pre (P' := pts (c i) (.obj (some u)) ∗ pts (t, 1) (.obj (some (gen n))) ∗ seg c (i + 1) us) (by cancel) ?_
      refine Triple.post (asg_pts Reads.pts.left.right) ?_
      intro _
      cancel
    intro _
    call (ih (i := i + 1) (n := n + 1) (x := .obj (some (gen n))))
    intro r
    xintro hr
    rw [List.range'_succ, List.map_cons, seg_cons]
    rw [tmpGen_succ (x := x)]
    cancel
    omega

theorem generateN_spec {gen : Nat → V} :
    Triple True (seg c i us) (generateN c i us.length gen) (fun r => ⌜r = i + us.length⌝ ∗ seg c i ((List.range us.length).map gen)) := by
  unfold generateN
  by_cases hne : us = []
  · subst hne
    rw [if_pos (by simp)]
    apply Triple.ret
    simp
    cancel
  rw [if_neg (by cases us <;> simp_all)]
  apply mallocO1
  · intro h; exact absurd trivial h
  intro t ht
  rw [if_neg ht]
  call (generateNLoop_spec (nf := True) (c := c) (i := i) (us := us) (gen := gen) (t := t) (x := .obj none) (n := 0))
  intro r
  xintro hr
  rw [tmpGen, if_neg (by cases us <;> simp_all)]
  steps
  call (freeV1 (a := t))
  intro _
  apply Triple.ret
  rw [← List.range_eq_range']
  cancel

end CC.Algo
