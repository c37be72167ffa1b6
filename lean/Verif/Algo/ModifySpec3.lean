import Verif.Algo.ModifySpec2
/-!
# Proofs for `c_modifying.c`: removal, replacement, reversal, rotation
-/
namespace CC.Algo
open CC CC.Tac
variable {V : Type} {nf : Prop} {P : HProp V} {c d : Slots} {i j : Nat} {vs us : List V}

/-- the same when the source lies in the destination range -/
theorem asg_seg' {P : HProp V} {src : Loc} {u v : V} {β : Type} {Q : β → HProp V} {K : Unit → M V β} (hs : Reads (P ∗ seg d j (u :: us)) src v)
    (ht : Triple nf ((P ∗ pts (d j) (.obj (some v))) ∗ seg d (j + 1) us) (K ()) Q) :
    Triple nf (P ∗ seg d j (u :: us)) (asg (d j) src >>= K) Q := by
  refine Triple.bind (Q := fun _ => (P ∗ pts (d j) (.obj (some v))) ∗ seg d (j + 1) us) ?_ (fun _ => ht)
  have he : (pts (d j) (.obj (some u)) ∗ P ∗ seg d (j + 1) us) ⊢ₛ (P ∗ seg d j (u :: us)) := by rw [seg_cons]; cancel
  refine Triple.pre (P' := pts (d j) (.obj (some u)) ∗ P ∗ seg d (j + 1) us) (by rw [seg_cons]; cancel) ?_
  refine Triple.post (asg_pts (hs.mono he)) ?_
  intro _
  cancel

theorem removeLoop_spec {gone : Nat → M V Bool} {q : V → Bool} {G : List V} {n : Nat} (hc : CondOn nf P gone c q) (hG : G ≠ []) :
    Triple nf (P ∗ seg c i (G ++ vs)) (removeLoop gone c i (i + G.length) (i + G.length + vs.length) n)
      (fun r => ⌜r = (n + (vs.filter q).length, i + (vs.filter fun v => !q v).length)⌝ ∗ P ∗
        ∃ₛ T, ⌜T.length = G.length + (vs.filter q).length⌝ ∗ seg c i ((vs.filter fun v => !q v) ++ T)) := by
  induction vs generalizing i G n P with
  | nil =>
    rw [removeLoop, if_neg (by simp)]
    apply Triple.ret
    xexists G
    simp only [List.append_nil, List.filter_nil, List.nil_append, List.length_nil, Nat.add_zero]
    cancel
  | cons v vs ih =>
    rw [removeLoop, if_pos (by simp)]
    have hread : Reads (seg c i (G ++ v :: vs)) (c (i + G.length)) v := by
      have := (seg_rng (c := c) (i := i) (vs := G ++ v :: vs)) G.length (by simp)
      simpa using this
    refine hc _ _ v hread.right ?_
    cases G with
    | nil => exact absurd rfl hG
    | cons g G =>
      by_cases hq : q v = true
      · rw [hq, if_neg (by simp)]
        have := ih (P := P) (i := i) (G := g :: (G ++ [v])) (n := n + 1) hc (by simp)
        rw [show i + (g :: (G ++ [v])).length = i + (g :: G).length + 1 by simp; omega, show g :: (G ++ [v]) ++ vs = g :: G ++ v :: vs by simp] at this
        rw [show i + (g :: G).length + (v :: vs).length = i + (g :: G).length + 1 + vs.length by simp; omega]
        refine Triple.post this ?_
        intro r
        xintro hr
        xintro T hT
        xexists T
        rw [List.filter_cons_of_pos hq, List.filter_cons_of_neg (by simp [hq])]
        cancel
        · rw [hr, List.length_cons]; ext <;> simp <;> omega
        · simp at hT ⊢; omega
      · rw [Bool.not_eq_true] at hq
        rw [hq, if_pos (by simp)]
        rw [List.cons_append] at hread ⊢
        refine asg_seg' (v := v) hread.right ?_
        have := ih (P := P ∗ pts (c i) (.obj (some v))) (i := i + 1) (G := G ++ [v]) (n := n) hc.frame (by simp)
        rw [show i + 1 + (G ++ [v]).length = i + (g :: G).length + 1 by simp; omega, show G ++ [v] ++ vs = G ++ v :: vs by simp] at this
        rw [show i + (g :: G).length + (v :: vs).length = i + (g :: G).length + 1 + vs.length by simp; omega]
        refine Triple.post this ?_
        intro r
        xintro hr
        xintro T hT
        xexists T
        rw [List.filter_cons_of_neg (by simp [hq]), List.filter_cons_of_pos (by simp [hq]), List.cons_append, seg_cons]
        cancel
        · rw [hr, List.length_cons]; ext <;> simp <;> omega
        · simp at hT ⊢; omega

theorem seg_filter_nil {q : V → Bool} (h : ∀ v, v ∈ vs → q v = false) : vs.filter q = [] ∧ (vs.filter fun v => !q v) = vs := by
  constructor
  · rw [List.filter_eq_nil_iff]; intro a ha; simp [h a ha]
  · rw [List.filter_eq_self]; intro a ha; simp [h a ha]

/-- what a search for the elements to remove (replace) leaves: a prefix without them -/
theorem found_split {q : V → Bool} {r : Bool × Nat} (h : FoundFirst (At vs fun v => q v = true) vs.length i r) :
    ∃ A B, vs = A ++ B ∧ r.2 = i + A.length ∧ (∀ v, v ∈ A → q v = false) ∧ (∀ v B', B = v :: B' → q v = true) := by
  have key : ∀ k, k ≤ vs.length → (∀ j, j < k → ¬ At vs (fun v => q v = true) j) → ∀ v, v ∈ vs.take k → q v = false := by
    intro k hk hj v hv
    obtain ⟨j, hjl, rfl⟩ := List.getElem_of_mem hv
    simp only [List.length_take] at hjl
    have := hj j (by omega)
    rw [List.getElem_take]
    cases hq : q vs[j]
    · rfl
    · exact absurd ⟨_, List.getElem?_eq_getElem (by omega), hq⟩ this
  rcases h with ⟨_, k, ⟨h1, ⟨v, h2, h3⟩, h4⟩, h5⟩ | ⟨_, h2, h3⟩
  · refine ⟨vs.take k, vs.drop k, by simp, by simp; omega, key k (by omega) h4, ?_⟩
    intro x B' hx
    have : vs[k]? = some x := by
      have := congrArg (fun l => l[0]?) hx
      simpa using this
    rw [h2] at this; cases this; exact h3
  · refine ⟨vs, [], by simp, h2, ?_, by simp⟩
    have := key vs.length (by omega) h3
    simpa using this

theorem remove_gen {gone : Nat → M V Bool} {q : V → Bool} {m : M V (Bool × Nat)} (hc : CondOn nf P gone c q)
    (hm : Triple nf (P ∗ seg c i vs) m (fun r => ⌜FoundFirst (At vs fun v => q v = true) vs.length i r⌝ ∗ P ∗ seg c i vs)) :
    Triple nf (P ∗ seg c i vs) (do let r ← m; if r.2 ≠ i + vs.length then removeLoop gone c r.2 (r.2 + 1) (i + vs.length) 1 else pure (0, r.2))
      (fun r => ⌜r = ((vs.filter q).length, i + (vs.filter fun v => !q v).length)⌝ ∗ P ∗
        ∃ₛ T, ⌜T.length = (vs.filter q).length⌝ ∗ seg c i ((vs.filter fun v => !q v) ++ T)) := by
  refine Triple.bind hm ?_
  intro r
  xintro hr
  obtain ⟨A, B, rfl, h1, h2, h3⟩ := found_split hr
  obtain ⟨e1, e2⟩ := seg_filter_nil h2
  cases B with
  | nil =>
    rw [if_neg (by simp [h1])]
    apply Triple.ret
    xexists []
    simp only [List.append_nil, e1, e2]
    cancel
    · rw [h1]; rfl
  | cons v B =>
    rw [if_pos (by simp [h1])]
    have hv := h3 v B rfl
    have := removeLoop_spec (P := P ∗ seg c i A) (c := c) (i := i + A.length) (G := [v]) (vs := B) (n := 1) hc.frame (by simp)
    rw [List.length_singleton, ← h1] at this
    rw [show i + (A ++ v :: B).length = r.2 + 1 + B.length by simp [h1]; omega]
    refine Triple.pre (P' := (P ∗ seg c i A) ∗ seg c r.2 ([v] ++ B)) (by rw [seg_append, ← h1]; cancel) ?_
    refine Triple.post this ?_
    intro r'
    xintro hr'
    xintro T hT
    xexists T
    rw [List.filter_append, List.filter_append, e1, e2, List.nil_append, List.filter_cons_of_pos hv, List.filter_cons_of_neg (by simp [hv]), List.append_assoc,
      seg_append (xs := A), ← h1]
    cancel
    · rw [hr', List.length_cons]; ext <;> simp <;> omega
    · simp at hT ⊢; omega

theorem remove_spec {eq : V → V → Bool} {value : Loc} {w : V} (hw : Reads P value w) :
    Triple nf (P ∗ seg c i vs) (remove c i (i + vs.length) value eq)
      (fun r => ⌜r = ((vs.filter fun v => eq v w).length, i + (vs.filter fun v => !eq v w).length)⌝ ∗ P ∗
        ∃ₛ T, ⌜T.length = (vs.filter fun v => eq v w).length⌝ ∗ seg c i ((vs.filter fun v => !eq v w) ++ T)) :=
  remove_gen (CondOn.cmp hw) (findBy_spec seg_rng.right hw.left)

theorem removeIf_spec {pred : V → Bool} :
    Triple nf (P ∗ seg c i vs) (removeIf c i (i + vs.length) pred)
      (fun r => ⌜r = ((vs.filter pred).length, i + (vs.filter fun v => !pred v).length)⌝ ∗ P ∗
        ∃ₛ T, ⌜T.length = (vs.filter pred).length⌝ ∗ seg c i ((vs.filter fun v => !pred v) ++ T)) :=
  remove_gen CondOn.test (findIf_spec seg_rng.right)

theorem replaceLoop_spec {cond : Nat → M V Bool} {q : V → Bool} {new : Loc} {x : V} {n : Nat} (hc : CondOn nf P cond c q) (hx : Reads P new x) :
    Triple nf (P ∗ seg c i vs) (replaceLoop cond c new i (i + vs.length) n)
      (fun r => ⌜r = n + (vs.filter q).length⌝ ∗ P ∗ seg c i (vs.map fun v => if q v then x else v)) := by
  induction vs generalizing i n P with
  | nil =>
    rw [replaceLoop, if_neg (by simp)]
    apply Triple.ret
    simp
    cancel
  | cons v vs ih =>
    rw [replaceLoop, if_pos (by simp)]
    refine hc _ _ v seg_rng.head.right ?_
    rw [show i + (v :: vs).length = i + 1 + vs.length by simp; omega]
    by_cases hq : q v = true
    · rw [if_pos hq]
      refine asg_seg hx ?_
      refine Triple.post (ih (P := P ∗ pts (c i) (.obj (some x))) hc.frame hx.left) ?_
      intro r
      xintro hr
      rw [List.filter_cons_of_pos hq, List.map_cons, seg_cons, if_pos hq]
      cancel
      simp; omega
    · rw [if_neg hq, seg_cons, ← sep_assoc]
      refine Triple.post (ih (P := P ∗ pts (c i) (.obj (some v))) hc.frame hx.left) ?_
      intro r
      xintro hr
      rw [List.filter_cons_of_neg hq, List.map_cons, seg_cons, if_neg hq]
      cancel

theorem replace_gen {cond : Nat → M V Bool} {q : V → Bool} {new : Loc} {x : V} {m : M V (Bool × Nat)} (hc : CondOn nf P cond c q) (hx : Reads P new x)
    (hm : Triple nf (P ∗ seg c i vs) m (fun r => ⌜FoundFirst (At vs fun v => q v = true) vs.length i r⌝ ∗ P ∗ seg c i vs)) :
    Triple nf (P ∗ seg c i vs) (do let r ← m; replaceLoop cond c new r.2 (i + vs.length) 0)
      (fun r => ⌜r = (vs.filter q).length⌝ ∗ P ∗ seg c i (vs.map fun v => if q v then x else v)) := by
  refine Triple.bind hm ?_
  intro r
  xintro hr
  obtain ⟨A, B, rfl, h1, h2, h3⟩ := found_split hr
  obtain ⟨e1, e2⟩ := seg_filter_nil h2
  have := replaceLoop_spec (P := P ∗ seg c i A) (c := c) (i := i + A.length) (vs := B) (n := 0) hc.frame hx.left
  rw [show i + A.length + B.length = i + (A ++ B).length by simp; omega, ← h1] at this
  refine Triple.pre (P' := (P ∗ seg c i A) ∗ seg c r.2 B) (by rw [seg_append, ← h1]; cancel) ?_
  refine Triple.post this ?_
  intro r'
  xintro hr'
  rw [List.filter_append, e1, List.nil_append, List.map_append]
  have hA : (A.map fun v => if q v then x else v) = A :=
    (List.map_congr_left (g := id) fun v hv => by simp [h2 v hv]).trans (List.map_id A)
  rw [hA, seg_append, ← h1]
  cancel
  omega

theorem replace_spec {eq : V → V → Bool} {old new : Loc} {w x : V} (hw : Reads P old w) (hx : Reads P new x) :
    Triple nf (P ∗ seg c i vs) (replace c i (i + vs.length) old new eq)
      (fun r => ⌜r = (vs.filter fun v => eq v w).length⌝ ∗ P ∗ seg c i (vs.map fun v => if eq v w then x else v)) :=
  replace_gen (CondOn.cmp hw) hx (findBy_spec seg_rng.right hw.left)

theorem replaceIf_spec {pred : V → Bool} {new : Loc} {x : V} (hx : Reads P new x) :
    Triple nf (P ∗ seg c i vs) (replaceIf c i (i + vs.length) pred new)
      (fun r => ⌜r = (vs.filter pred).length⌝ ∗ P ∗ seg c i (vs.map fun v => if pred v then x else v)) :=
  replace_gen CondOn.test hx (findIf_spec seg_rng.right)

theorem swapRangeLoop_spec {n : Nat} (hl : vs.length = us.length) :
    Triple nf (seg c i vs ∗ seg d j us) (swapRangeLoop c d i (i + vs.length) j n) (fun r => ⌜r = n + vs.length⌝ ∗ seg c i us ∗ seg d j vs) := by
  induction vs generalizing us i j n with
  | nil =>
    obtain rfl : us = [] := by cases us <;> simp_all
    rw [swapRangeLoop, if_neg (by simp)]
    apply Triple.ret
    cancel
  | cons v vs ih =>
    cases us with
    | nil => simp at hl
    | cons u us =>
      rw [swapRangeLoop, if_pos (by simp), seg_cons, seg_cons]
      call (swp_pts (x := c i) (y := d j) (a := v) (b := u))
      intro _
      rw [show i + (v :: vs).length = i + 1 + vs.length by simp; omega]
      call (ih (us := us) (i := i + 1) (j := j + 1) (n := n + 1) (by simpa using hl))
      intro r
      xintro hr
      rw [seg_cons, seg_cons]
      cancel
      simp; omega

theorem reverseLoop_spec {n : Nat} : Triple nf (seg c i vs) (reverseLoop c i (i + vs.length) n) (fun r => ⌜r = n + vs.length⌝ ∗ seg c i vs.reverse) := by
  induction hk : vs.length using Nat.strongRecOn generalizing vs i n with
  | _ k ih =>
    subst hk
    cases vs with
    | nil =>
      rw [reverseLoop, if_neg (by simp)]
      apply Triple.ret
      cancel
    | cons v vs =>
      rw [reverseLoop, if_pos (by simp), List.length_cons, ← Nat.add_assoc]
      refine dec_spec ?_
      cases hu : vs.reverse with
      | nil =>
        obtain rfl : vs = [] := by simpa using hu
        rw [if_neg (by simp), List.length_nil, Nat.add_zero, reverseLoop, if_neg (by simp)]
        apply Triple.ret
        simp
        cancel
      | cons w us =>
        obtain rfl : vs = us.reverse ++ [w] := by rw [← List.reverse_reverse vs, hu, List.reverse_cons]
        rw [if_pos (by simp), seg_cons, seg_append, seg_one]
        have hlen : (us.reverse ++ [w]).length = us.length + 1 := by simp
        rw [hlen, show i + (us.length + 1) = i + 1 + us.reverse.length by simp; omega]
        call (swp_pts (x := c i) (y := c (i + 1 + us.reverse.length)) (a := v) (b := w))
        intro _
        call (ih us.reverse.length (by simp; omega) (vs := us.reverse) (i := i + 1) (n := n + 1 + 1) rfl)
        intro r
        xintro hr
        simp only [List.reverse_cons, List.reverse_append, List.reverse_nil, List.nil_append, List.cons_append, List.reverse_reverse, seg_cons, seg_append, seg_one, List.length_reverse] at *
        cancel
        omega

/-- one step of the loops of `algo_rotate` -/
theorem rotate_step (A B1 B2 : List V) (a b : V) :
    Triple nf (seg c i (a :: A ++ B1 ++ b :: B2)) (swp (c i) (c (i + (a :: A).length + B1.length)))
      (fun _ => pts (c i) (.obj (some b)) ∗ seg c (i + 1) (A ++ (B1 ++ [a]) ++ B2)) := by
  have e1 : seg c i (a :: A ++ B1 ++ b :: B2) = (pts (c i) (.obj (some a)) ∗ (seg c (i + 1) (A ++ B1) ∗ pts (c (i + (a :: A).length + B1.length)) (.obj (some b)) ∗
      seg c (i + (a :: A).length + B1.length + 1) B2)) := by
    rw [List.cons_append, List.cons_append, seg_cons, seg_append, seg_cons]
    rw [show i + 1 + (A ++ B1).length = i + (a :: A).length + B1.length by simp; omega]
  have e2 : seg c (i + 1) (A ++ (B1 ++ [a]) ++ B2) = (seg c (i + 1) (A ++ B1) ∗ pts (c (i + (a :: A).length + B1.length)) (.obj (some a)) ∗
      seg c (i + (a :: A).length + B1.length + 1) B2) := by
    rw [show A ++ (B1 ++ [a]) ++ B2 = (A ++ B1) ++ a :: B2 by simp, seg_append, seg_cons]
    rw [show i + 1 + (A ++ B1).length = i + (a :: A).length + B1.length by simp; omega]
  rw [e1, e2]
  call (swp_pts (x := c i) (y := c (i + (a :: A).length + B1.length)) (a := a) (b := b))
  intro _
  cancel

/-- the second loop of `algo_rotate`, started at an intermediate state -/
theorem rotateLoop2_spec {A B1 B2 : List V} (h1 : B2 = [] → B1 = []) (h2 : B2 ≠ [] → A ≠ []) :
    Triple nf (seg c i (A ++ B1 ++ B2)) (rotateLoop2 c i (i + A.length) (i + A.length + B1.length) (i + A.length + B1.length + B2.length))
      (fun _ => seg c i (B2 ++ B1 ++ A)) := by
  induction hk : A.length + B1.length + B2.length using Nat.strongRecOn generalizing A B1 B2 i with
  | _ k ih =>
    rw [rotateLoop2]
    cases B2 with
    | nil =>
      obtain rfl := h1 rfl
      rw [if_neg (by simp)]
      apply Triple.ret
      simp
      exact ent_refl _
    | cons b B2 =>
      cases A with
      | nil => exact absurd rfl (h2 (by simp))
      | cons a A =>
        rw [if_pos (by simp)]
        refine Triple.bind (Q := fun _ => pts (c i) (.obj (some b)) ∗ seg c (i + 1) (A ++ (B1 ++ [a]) ++ B2)) (rotate_step A B1 B2 a b) ?_
        intro _
        simp only [List.length_cons]
        generalize hX : B1 ++ [a] = X at *
        have hXl : X.length = B1.length + 1 := by rw [← hX]; simp
        have fin : ∀ {m : M V Unit}, Triple nf (seg c (i + 1) (A ++ X ++ B2)) m (fun _ => seg c (i + 1) (B2 ++ X ++ A)) →
            Triple nf (pts (c i) (.obj (some b)) ∗ seg c (i + 1) (A ++ X ++ B2)) m (fun _ => seg c i (b :: B2 ++ B1 ++ a :: A)) := by
          intro m hm
          call hm
          intro _
          rw [show b :: B2 ++ B1 ++ a :: A = b :: (B2 ++ X ++ A) by rw [← hX]; simp, seg_cons]
          cancel
        apply fin
        by_cases hA : A = []
        · subst hA
          rw [if_pos (by simp)]
          by_cases hB : B2 = []
          · subst hB
            rw [if_pos (by simp)]
            have := ih X.length (by simp at hk ⊢; omega) (i := i + 1) (A := X) (B1 := []) (B2 := []) (by simp) (by simp) (by simp)
            simp only [List.length_nil, List.append_nil, List.nil_append, Nat.add_zero] at this ⊢
            rw [show i + (0 + 1) + B1.length + (0 + 1) = i + 1 + X.length by omega]
            exact this
          · rw [if_neg (by simp; cases B2 <;> simp_all)]
            have := ih (X.length + B2.length) (by simp at hk ⊢; omega) (i := i + 1) (A := X) (B1 := []) (B2 := B2) (by simp [hB]) (by intro _; rw [← hX]; simp) (by simp)
            simp only [List.length_nil, List.append_nil, List.nil_append, Nat.add_zero] at this ⊢
            rw [show i + (0 + 1) + B1.length + (B2.length + 1) = i + 1 + X.length + B2.length by omega, show i + (0 + 1) + B1.length + 1 = i + 1 + X.length by omega]
            exact this
        · have hA' : A.length ≠ 0 := by cases A <;> simp_all
          rw [if_neg (by omega)]
          by_cases hB : B2 = []
          · subst hB
            rw [if_pos (by simp)]
            have := ih (A.length + X.length) (by simp at hk ⊢; omega) (i := i + 1) (A := A) (B1 := []) (B2 := X) (by rw [← hX]; simp) (by intro _; exact hA) (by simp)
            simp only [List.length_nil, List.append_nil, List.nil_append, Nat.add_zero] at this ⊢
            rw [show i + (A.length + 1) + B1.length + (0 + 1) = i + 1 + A.length + X.length by omega, show i + (A.length + 1) = i + 1 + A.length by omega]
            exact this
          · rw [if_neg (by simp; cases B2 <;> simp_all)]
            have := ih (A.length + X.length + B2.length) (by simp at hk ⊢; omega) (i := i + 1) (A := A) (B1 := X) (B2 := B2) (by simp [hB]) (by intro _; exact hA) rfl
            rw [show i + (A.length + 1) + B1.length + (B2.length + 1) = i + 1 + A.length + X.length + B2.length by omega,
              show i + (A.length + 1) + B1.length + 1 = i + 1 + A.length + X.length by omega, show i + (A.length + 1) = i + 1 + A.length by omega]
            exact this

/-- the first loop of `algo_rotate`: the elements from `next` on have been moved to the front, the rest is a rotated list -/
theorem rotateLoop1_spec {A B1 B2 : List V} (h1 : A ≠ []) (h2 : B2 ≠ []) :
    Triple nf (seg c i (A ++ B1 ++ B2)) (rotateLoop1 c i (i + A.length) (i + A.length + B1.length) (i + A.length + B1.length + B2.length))
      (fun r => ∃ₛ X, ∃ₛ Y, ⌜r = (i + B2.length, i + B2.length + X.length) ∧ Y ++ X = B1 ++ A ∧ (Y ≠ [] → X ≠ [])⌝ ∗
        seg c i (B2 ++ X ++ Y)) := by
  induction hk : A.length + B1.length + B2.length using Nat.strongRecOn generalizing A B1 B2 i with
  | _ k ih =>
    rw [rotateLoop1]
    cases B2 with
    | nil => exact absurd rfl h2
    | cons b B2 =>
      cases A with
      | nil => exact absurd rfl h1
      | cons a A =>
        refine Triple.bind (Q := fun _ => pts (c i) (.obj (some b)) ∗ seg c (i + 1) (A ++ (B1 ++ [a]) ++ B2)) (rotate_step A B1 B2 a b) ?_
        intro _
        simp only [List.length_cons]
        generalize hX : B1 ++ [a] = X at *
        have hXl : X.length = B1.length + 1 := by rw [← hX]; simp
        have fin : ∀ {m : M V (Nat × Nat)}, Triple nf (seg c (i + 1) (A ++ X ++ B2)) m
            (fun r => ∃ₛ X', ∃ₛ Y, ⌜r = (i + 1 + B2.length, i + 1 + B2.length + X'.length) ∧ Y ++ X' = X ++ A ∧ (Y ≠ [] → X' ≠ [])⌝ ∗
              seg c (i + 1) (B2 ++ X' ++ Y)) →
            Triple nf (pts (c i) (.obj (some b)) ∗ seg c (i + 1) (A ++ X ++ B2)) m
              (fun r => ∃ₛ X, ∃ₛ Y, ⌜r = (i + (B2.length + 1), i + (B2.length + 1) + X.length) ∧ Y ++ X = B1 ++ a :: A ∧ (Y ≠ [] → X ≠ [])⌝ ∗
                seg c i (b :: B2 ++ X ++ Y)) := by
          intro m hm
          call hm
          intro r
          xintro X' Y h
          obtain ⟨e1, e2, e3⟩ := h
          xexists X', Y
          rw [List.cons_append, List.cons_append, seg_cons]
          cancel
          refine ⟨by rw [e1]; ext <;> simp <;> omega, by rw [e2, ← hX]; simp, e3⟩
        apply fin
        by_cases hB : B2 = []
        · subst hB
          rw [if_neg (by simp)]
          apply Triple.ret
          by_cases hA : A = []
          · subst hA
            rw [if_pos (by simp)]
            xexists X, []
            simp only [List.append_nil, List.nil_append, List.length_nil, Nat.add_zero]
            cancel
            refine ⟨by ext <;> simp; omega, trivial, by simp⟩
          · rw [if_neg (by cases A <;> simp_all)]
            xexists A, X
            simp only [List.append_nil, List.nil_append, List.length_nil, Nat.add_zero]
            cancel
            refine ⟨by ext <;> simp; omega, trivial, fun _ => hA⟩
        · rw [if_pos (by simp; cases B2 <;> simp_all)]
          by_cases hA : A = []
          · subst hA
            rw [if_pos (by simp)]
            have := ih (X.length + B2.length) (by simp at hk ⊢; omega) (i := i + 1) (A := X) (B1 := []) (B2 := B2) (by rw [← hX]; simp) hB (by simp)
            simp only [List.length_nil, List.append_nil, List.nil_append, Nat.add_zero] at this ⊢
            rw [show i + (0 + 1) + B1.length + (B2.length + 1) = i + 1 + X.length + B2.length by omega, show i + (0 + 1) + B1.length + 1 = i + 1 + X.length by omega]
            exact this
          · rw [if_neg (by cases A <;> simp_all)]
            have := ih (A.length + X.length + B2.length) (by simp at hk ⊢; omega) (i := i + 1) (A := A) (B1 := X) (B2 := B2) hA hB rfl
            rw [show i + (A.length + 1) + B1.length + (B2.length + 1) = i + 1 + A.length + X.length + B2.length by omega,
              show i + (A.length + 1) + B1.length + 1 = i + 1 + A.length + X.length by omega, show i + (A.length + 1) = i + 1 + A.length by omega]
            exact this

theorem rotate_spec {A B : List V} :
    Triple nf (seg c i (A ++ B)) (rotate c i (i + A.length) (i + A.length + B.length)) (fun r => ⌜r = i + B.length⌝ ∗ seg c i (B ++ A)) := by
  unfold rotate
  by_cases hA : A = []
  · subst hA
    rw [if_pos (by simp)]
    apply Triple.ret
    simp
    cancel
  rw [if_neg (by cases A <;> simp_all)]
  by_cases hB : B = []
  · subst hB
    rw [if_pos (by simp)]
    apply Triple.ret
    simp
    cancel
  rw [if_neg (by cases B <;> simp_all)]
  have h1 := rotateLoop1_spec (nf := nf) (c := c) (i := i) (A := A) (B1 := []) (B2 := B) hA hB
  simp only [List.append_nil, List.length_nil, Nat.add_zero, List.nil_append] at h1
  refine Triple.bind h1 ?_
  intro r
  xintro X Y h
  obtain ⟨rfl, h2, h3⟩ := h
  have h4 := rotateLoop2_spec (nf := nf) (c := c) (i := i + B.length) (A := X) (B1 := []) (B2 := Y) (fun _ => rfl) h3
  have hl : X.length + Y.length = A.length := by rw [← h2]; simp; omega
  simp only [List.append_nil, List.length_nil, Nat.add_zero, h2] at h4
  rw [show i + B.length + X.length + Y.length = i + A.length + B.length by omega] at h4
  dsimp only
  rw [List.append_assoc, seg_append]
  call h4
  intro _
  apply Triple.ret
  rw [seg_append]
  cancel

theorem shuffleLoop_spec {r : Nat → Nat} {n : Nat} (hn : n < vs.length ∨ n = 0) (hr : ∀ k, k < n → r (k + 1) ≤ k + 1) :
    Triple nf (seg c i vs) (shuffleLoop c i r n) (fun _ => ∃ₛ ws, ⌜ws.Perm vs⌝ ∗ seg c i ws) := by
  induction n generalizing vs with
  | zero =>
    rw [shuffleLoop]
    apply Triple.ret
    xexists vs
    cancel
  | succ n ih =>
    have hn' : n + 1 < vs.length := by omega
    have h1 := hr n (by omega)
    rw [shuffleLoop]
    refine Triple.bind (swp_seg hn' (by omega)) ?_
    intro _
    refine Triple.post (ih (by simp; omega) (fun k hk => hr k (by omega))) ?_
    intro _
    xintro ws h
    xexists ws
    cancel
    exact h.trans (List.set_set_perm _ _)

theorem uniqueLoop_spec {pred : V → V → Bool} {a : V} {G : List V} {n : Nat} :
    Triple nf (seg c i (a :: G ++ vs)) (uniqueLoop c pred i (i + 1 + G.length) (i + 1 + G.length + vs.length) n)
      (fun r => ⌜r = (n + (uniqTail pred a vs).length, i + 1 + (uniqTail pred a vs).length)⌝ ∗
        ∃ₛ T, ⌜(uniqTail pred a vs).length + T.length = G.length + vs.length⌝ ∗ seg c i (a :: uniqTail pred a vs ++ T)) := by
  induction vs generalizing i a G n with
  | nil =>
    rw [uniqueLoop, if_neg (by simp)]
    apply Triple.ret
    xexists G
    simp only [List.append_nil, uniqTail, List.nil_append, List.length_nil, Nat.add_zero, Nat.zero_add]
    cancel
  | cons v vs ih =>
    rw [uniqueLoop, if_pos (by simp)]
    have hread : Reads (seg c i (a :: G ++ v :: vs)) (c (i + 1 + G.length)) v := by
      have := (seg_rng (c := c) (i := i) (vs := a :: G ++ v :: vs)) (G.length + 1) (by simp)
      rw [show i + (G.length + 1) = i + 1 + G.length by omega] at this
      simpa using this
    refine cmp_reads seg_rng.head hread ?_
    rw [show i + 1 + G.length + (v :: vs).length = i + 1 + G.length + 1 + vs.length by simp; omega]
    by_cases hq : pred a v = true
    · rw [hq, if_neg (by simp)]
      have := ih (i := i) (a := a) (G := G ++ [v]) (n := n)
      rw [show i + 1 + (G ++ [v]).length = i + 1 + G.length + 1 by simp; omega, show a :: (G ++ [v]) ++ vs = a :: G ++ v :: vs by simp] at this
      rw [uniqTail, if_pos hq]
      refine Triple.post this ?_
      intro r
      xintro hr
      xintro T hT
      xexists T
      cancel
      simp at hT ⊢; omega
    · have hq' : pred a v = false := by simpa using hq
      rw [hq', if_pos (by simp)]
      rw [uniqTail, if_neg hq]
      obtain ⟨x, Y, hXY⟩ : ∃ x Y, G ++ v :: vs = x :: Y := by cases G <;> simp
      have hY : Y = (G ++ [v]).tail ++ vs := by cases G <;> simp_all
      rw [List.cons_append, hXY] at hread ⊢
      rw [seg_cons] at hread ⊢
      refine asg_seg' hread ?_
      have := ih (i := i + 1) (a := v) (G := (G ++ [v]).tail) (n := n + 1)
      rw [show (G ++ [v]).tail.length = G.length by simp, show v :: (G ++ [v]).tail ++ vs = v :: Y by rw [hY]; rfl, seg_cons,
        show i + 1 + 1 + G.length = i + 1 + G.length + 1 by omega] at this
      call this
      intro r
      xintro hr
      xintro T hT
      xexists T
      simp only [List.cons_append, seg_cons]
      cancel
      · rw [hr]; ext <;> simp <;> omega
      · simp at hT ⊢; omega

theorem unique_spec {pred : V → V → Bool} :
    Triple nf (seg c i vs) (unique c i (i + vs.length) pred)
      (fun r => ⌜r = ((uniq pred vs).length, i + (uniq pred vs).length)⌝ ∗
        ∃ₛ T, ⌜(uniq pred vs).length + T.length = vs.length⌝ ∗ seg c i (uniq pred vs ++ T)) := by
  unfold unique
  cases vs with
  | nil =>
    rw [if_pos (by simp)]
    apply Triple.ret
    xexists []
    simp [uniq]
    cancel
  | cons v vs =>
    rw [if_neg (by simp)]
    have := uniqueLoop_spec (nf := nf) (c := c) (i := i) (a := v) (G := []) (vs := vs) (n := 1) (pred := pred)
    rw [List.length_nil, Nat.add_zero, show i + 1 + vs.length = i + (v :: vs).length by simp; omega] at this
    refine Triple.post this ?_
    intro r
    xintro hr
    xintro T hT
    xexists T
    rw [uniq]
    cancel
    · rw [hr]; ext <;> simp <;> omega
    · simp at hT ⊢; omega

theorem uniqueCopyLoop_spec {pred : V → V → Bool} {a : V} {n : Nat} (h : Rng P c i vs) (hl : (uniqTail pred a vs).length ≤ us.length) :
    Triple nf (P ∗ seg d j (a :: us)) (uniqueCopyLoop c d pred i (i + vs.length) j n)
      (fun r => ⌜r = (n + (uniqTail pred a vs).length, j + 1 + (uniqTail pred a vs).length)⌝ ∗ P ∗ seg d j (a :: over us (uniqTail pred a vs))) := by
  induction vs generalizing i j a us n P with
  | nil =>
    rw [uniqueCopyLoop, if_neg (by simp)]
    apply Triple.ret
    simp [over, uniqTail]
    cancel
  | cons v vs ih =>
    rw [uniqueCopyLoop, if_pos (by simp)]
    refine cmp_reads seg_rng.head.right h.head.left ?_
    rw [show i + (v :: vs).length = i + 1 + vs.length by simp; omega]
    rw [uniqTail] at hl ⊢
    by_cases hq : pred a v = true
    · rw [hq, if_neg (by simp)]
      rw [if_pos hq] at hl
      simp only [if_pos hq]
      exact ih h.tail hl
    · have hq' : pred a v = false := by simpa using hq
      rw [hq', if_pos (by simp)]
      rw [if_neg hq] at hl
      simp only [Bool.false_eq_true, ↓reduceIte]
      cases us with
      | nil => simp at hl
      | cons u us =>
        rw [seg_cons, ← sep_assoc]
        refine asg_seg h.head.left ?_
        have := ih (P := P ∗ pts (d j) (.obj (some a))) (i := i + 1) (j := j + 1) (a := v) (us := us) (n := n + 1) h.tail.left (by simpa using hl)
        rw [seg_cons, ← sep_assoc] at this
        refine Triple.post this ?_
        intro r
        xintro hr
        simp only [over, List.cons_append, seg_cons, List.length_cons, List.drop_succ_cons]
        cancel
        rw [hr]; ext <;> simp <;> omega

theorem uniqueCopy_spec {pred : V → V → Bool} (h : Rng P c i vs) (hl : (uniq pred vs).length ≤ us.length) :
    Triple nf (P ∗ seg d j us) (uniqueCopy c i (i + vs.length) d j pred)
      (fun r => ⌜r = ((uniq pred vs).length, j + (uniq pred vs).length)⌝ ∗ P ∗ seg d j (over us (uniq pred vs))) := by
  unfold uniqueCopy
  cases vs with
  | nil =>
    rw [if_pos (by simp)]
    apply Triple.ret
    simp [over, uniq]
    cancel
  | cons v vs =>
    rw [if_neg (by simp)]
    cases us with
    | nil => simp [uniq] at hl
    | cons u us =>
      refine asg_seg h.head ?_
      rw [show i + (v :: vs).length = i + 1 + vs.length by simp; omega]
      have := uniqueCopyLoop_spec (nf := nf) (P := P) (c := c) (d := d) (i := i + 1) (j := j) (a := v) (us := us) (n := 1) (pred := pred) h.tail (by simpa [uniq] using hl)
      rw [seg_cons, ← sep_assoc] at this
      refine Triple.post this ?_
      intro r
      xintro hr
      simp only [over, uniq, List.cons_append, seg_cons, List.length_cons, List.drop_succ_cons]
      cancel
      rw [hr]; ext <;> simp <;> omega

theorem uniform_lt {seed n : Nat} (hn : 0 < n) : uniform seed n < n := by
  unfold uniform
  have h : ∀ x : Nat, x - x / 1048576 * 1048576 < 1048576 := by omega
  have := h (2045 * seed + 1)
  simp only
  rw [Nat.div_lt_iff_lt_mul (by omega)]
  exact Nat.mul_lt_mul_of_pos_left this hn

end CC.Algo
