import Verif.Algo.ModifySpec3
/-!
# Value arguments that are elements of the range itself
-/
namespace CC.Algo
open CC CC.Tac
variable {V β : Type} {nf : Prop} {c : Slots} {i : Nat} {us vs : List V} {F : HProp V} {Q : β → HProp V}

theorem asg_at {src : Loc} {v : V} {k : Nat} {K : Unit → M V β} (hk : k < us.length) (hs : Reads (seg c i us ∗ F) src v)
    (ht : Triple nf (seg c i (us.set k v) ∗ F) (K ()) Q) : Triple nf (seg c i us ∗ F) (asg (c (i + k)) src >>= K) Q := by
  unfold asg
  rw [bind_assoc]
  refine ldV_reads hs ?_
  call (wr_seg (c := c) (i := i) (w := v) hk)
  intro _
  exact ht

theorem own {k : Nat} (hk : k < us.length) : Reads (seg c i us ∗ F) (c (i + k)) us[k] := (seg_rng k hk).left

theorem take_set_next {us : List V} {j : Nat} {v : V} (hj : j < us.length) : (us.set j v).take (j + 1) = us.take j ++ [v] := by
  rw [List.take_succ, List.take_set, List.set_eq_of_length_le (by simp; omega)]
  simp [hj]

theorem drop_set_next {us : List V} {j : Nat} {v : V} : (us.set j v).drop (j + 1) = us.drop (j + 1) := by
  rw [List.drop_set]; simp

theorem fillLoop_own {k j n : Nat} {w : V} (hj : j ≤ us.length) (hk : us[k]? = some w) :
    Triple nf (seg c i us ∗ F) (fillLoop c (c (i + k)) (i + j) (i + us.length) n)
      (fun r => ⌜r = n + (us.length - j)⌝ ∗ seg c i (us.take j ++ List.replicate (us.length - j) w) ∗ F) := by
  obtain ⟨m, hm⟩ : ∃ m, m = us.length - j := ⟨_, rfl⟩
  induction m generalizing us j n with
  | zero =>
    obtain rfl : j = us.length := by omega
    rw [fillLoop, if_neg (by simp)]
    apply Triple.ret
    simp
    cancel
  | succ m ih =>
    obtain ⟨hkl, hkv⟩ := List.getElem?_eq_some_iff.1 hk
    rw [fillLoop, if_pos (by omega)]
    refine asg_at (v := w) (by omega) (hkv ▸ own hkl) ?_
    have hk' : (us.set j w)[k]? = some w := by
      rw [List.getElem?_set]
      split
      · rename_i h; subst h; simp [hkl]
      · exact hk
    have := ih (us := us.set j w) (j := j + 1) (n := n + 1) (by simp; omega) hk' (by simp; omega)
    rw [List.length_set, take_set_next (by omega)] at this
    rw [Nat.add_assoc i j 1]
    refine Triple.post this fun r => ?_
    refine ent_pure_left fun h => ent_pure_right (by omega) ?_
    rw [List.append_assoc, show us.length - j = (us.length - (j + 1)) + 1 by omega, List.replicate_succ]
    exact ent_refl _

theorem fillN_own {k j n : Nat} {w : V} (hj : j + n ≤ us.length) (hk : us[k]? = some w) :
    Triple nf (seg c i us ∗ F) (fillN c (i + j) n (c (i + k)))
      (fun r => ⌜r = i + j + n⌝ ∗ seg c i (us.take j ++ List.replicate n w ++ us.drop (j + n)) ∗ F) := by
  induction n generalizing us j with
  | zero =>
    rw [fillN]
    apply Triple.ret
    simp
    cancel
  | succ n ih =>
    obtain ⟨hkl, hkv⟩ := List.getElem?_eq_some_iff.1 hk
    rw [fillN]
    refine asg_at (v := w) (by omega) (hkv ▸ own hkl) ?_
    have hk' : (us.set j w)[k]? = some w := by
      rw [List.getElem?_set]
      split
      · rename_i h; subst h; simp [hkl]
      · exact hk
    have := ih (us := us.set j w) (j := j + 1) (by simp; omega) hk'
    rw [take_set_next (by omega)] at this
    have hd : (us.set j w).drop (j + 1 + n) = us.drop (j + (n + 1)) := by
      rw [List.drop_set, if_pos (by omega), show j + 1 + n = j + (n + 1) by omega]
    rw [hd] at this
    rw [Nat.add_assoc i j 1]
    refine Triple.post this fun r => ?_
    refine ent_pure_left fun h => ent_pure_right (by omega) ?_
    rw [List.append_assoc (us.take j), List.replicate_succ]
    exact ent_refl _

/-- `cond` evaluates `q` on the elements of the range -/
def Evals (nf : Prop) (F : HProp V) (c : Slots) (i : Nat) (cond : Nat → M V Bool) (ok : List V → Prop) (q : V → Bool) : Prop :=
  ∀ (us : List V) j (hj : j < us.length), ok us → ∀ {β : Type} {Q : β → HProp V} {K : Bool → M V β},
    Triple nf (seg c i us ∗ F) (K (q us[j])) Q → Triple nf (seg c i us ∗ F) (cond (i + j) >>= K) Q

/-- the loop of the replace functions: `src` keeps the value `x`, the condition keeps its meaning -/
theorem replaceLoop_own {cond : Nat → M V Bool} {ok : List V → Prop} {q : V → Bool} {src : Loc} {x : V} {j e n : Nat} (hc : Evals nf F c i cond ok q)
    (hs : ∀ us, ok us → Reads (seg c i us ∗ F) src x) (hok : ∀ us t, j ≤ t → t < e → ok us → ok (us.set t x)) (hj : j ≤ e) (he : e ≤ us.length) (h0 : ok us) {K : Nat → M V β} {last : Nat}
    (hl : last ≤ us.length) (hel : e ≤ last)
    (hk : Triple nf (seg c i (us.take j ++ ((us.take e).drop j).map (fun v => if q v then x else v) ++ us.drop e) ∗ F)
      (replaceLoop cond c src (i + e) (i + last) (n + (((us.take e).drop j).filter q).length) >>= K) Q) :
    Triple nf (seg c i us ∗ F) (replaceLoop cond c src (i + j) (i + last) n >>= K) Q := by
  obtain ⟨m, hm⟩ : ∃ m, m = e - j := ⟨_, rfl⟩
  induction m generalizing us j n with
  | zero =>
    obtain rfl : j = e := by omega
    simpa using hk
  | succ m ih =>
    have hju : j < us.length := by omega
    rw [replaceLoop, if_pos (by omega), bind_assoc]
    refine hc us j hju h0 ?_
    have hd : (us.take e).drop j = us[j] :: (us.take e).drop (j + 1) := by
      rw [List.drop_eq_getElem_cons (by simp; omega)]; simp
    rw [hd, List.map_cons, List.filter_cons] at hk
    by_cases hq : q us[j] = true
    · rw [if_pos hq] at hk ⊢
      rw [bind_assoc]
      refine asg_at hju (hs us h0) ?_
      rw [Nat.add_assoc i j 1]
      refine ih (us := us.set j x) (j := j + 1) (n := n + 1) (fun us t h1 h2 => hok us t (by omega) h2) (by omega) (by simpa using he) (hok us j (Nat.le_refl _) (by omega) h0)
        (by simpa using hl) ?_ (by omega)
      rw [take_set_next hju, List.drop_set, if_pos (by omega)]
      have : ((us.set j x).take e).drop (j + 1) = (us.take e).drop (j + 1) := by
        rw [List.take_set, List.drop_set, if_pos (by omega)]
      rw [this]
      simpa [hq, Nat.add_assoc, Nat.add_comm] using hk
    · rw [if_neg hq] at hk ⊢
      rw [Nat.add_assoc i j 1]
      refine ih (us := us) (j := j + 1) (n := n) (fun us t h1 h2 => hok us t (by omega) h2) (by omega) he h0 hl ?_ (by omega)
      have : us.take (j + 1) = us.take j ++ [us[j]] := by rw [List.take_succ]; simp [hju]
      rw [this, List.append_assoc (us.take j)]
      simp only [hq, Bool.false_eq_true, ↓reduceIte] at hk
      exact hk

theorem replaceLoop_end {cond : Nat → M V Bool} {src : Loc} {e n : Nat} {P : HProp V} {Q : Nat → HProp V} (h : P ⊢ₛ Q n) : Triple nf P (replaceLoop cond c src e e n) Q := by
  rw [replaceLoop, if_neg (by simp)]
  exact Triple.ret h

/-- the new value is an element of the range -/
theorem replaceNew_gen {cond : Nat → M V Bool} {q : V → Bool} {k : Nat} {x : V} {m : M V (Bool × Nat)} (hc : Evals nf F c i cond (fun us => us[k]? = some x) q)
    (hk : vs[k]? = some x)
    (hm : Triple nf (seg c i vs ∗ F) m (fun r => ⌜FoundFirst (At vs fun v => q v = true) vs.length i r⌝ ∗ seg c i vs ∗ F)) :
    Triple nf (seg c i vs ∗ F) (do let r ← m; replaceLoop cond c (c (i + k)) r.2 (i + vs.length) 0)
      (fun r => ⌜r = (vs.filter q).length⌝ ∗ seg c i (vs.map fun v => if q v then x else v) ∗ F) := by
  refine Triple.bind hm ?_
  intro r
  apply Triple.pure_left
  intro hr
  obtain ⟨A, B, hAB, h1, h2, h3⟩ := found_split hr
  obtain ⟨e1, e2⟩ := seg_filter_nil h2
  have hA : (A.map fun v => if q v then x else v) = A :=
    (List.map_congr_left (g := id) fun v hv => by simp [h2 v hv]).trans (List.map_id A)
  have ht : vs.take A.length = A := by rw [hAB]; simp
  have hd : (vs.take vs.length).drop A.length = B := by rw [List.take_length, hAB]; simp
  rw [h1, ← bind_pure (replaceLoop _ _ _ _ _ _)]
  refine replaceLoop_own (us := vs) (j := A.length) (e := vs.length) (last := vs.length) (x := x) hc (fun us hu => ?_) (fun us t _ _ hu => ?_) ?_ (Nat.le_refl _) hk (Nat.le_refl _) (Nat.le_refl _) ?_
  · obtain ⟨hkl, hkv⟩ := List.getElem?_eq_some_iff.1 hu
    exact hkv ▸ own hkl
  · rw [List.getElem?_set]
    obtain ⟨hkl, hkv⟩ := List.getElem?_eq_some_iff.1 hu
    split
    · rename_i h; subst h; simp [hkl]
    · exact hu
  · rw [hAB]; simp
  rw [ht, hd, bind_pure]
  refine replaceLoop_end (ent_pure_right ?_ ?_)
  · rw [hAB, List.filter_append, e1]; simp
  · rw [List.drop_length, List.append_nil]
    have : vs.map (fun v => if q v then x else v) = A ++ B.map (fun v => if q v then x else v) := by rw [hAB, List.map_append, hA]
    rw [this]
    exact ent_refl _

theorem replace_newOwn {eq : V → V → Bool} {old : Loc} {w x : V} {k : Nat} (hw : Reads F old w) (hk : vs[k]? = some x) :
    Triple nf (seg c i vs ∗ F) (replace c i (i + vs.length) old (c (i + k)) eq)
      (fun r => ⌜r = (vs.filter fun v => eq v w).length⌝ ∗ seg c i (vs.map fun v => if eq v w then x else v) ∗ F) :=
  replaceNew_gen (q := fun v => eq v w) (fun _ j hj _ {_ _ _} ht => cmp_reads (own hj) hw.right ht) hk (findBy_spec seg_rng.left hw.right)

theorem replaceIf_newOwn {pred : V → Bool} {x : V} {k : Nat} (hk : vs[k]? = some x) :
    Triple nf (seg c i vs ∗ F) (replaceIf c i (i + vs.length) pred (c (i + k)))
      (fun r => ⌜r = (vs.filter pred).length⌝ ∗ seg c i (vs.map fun v => if pred v then x else v) ∗ F) :=
  replaceNew_gen (q := pred) (fun _ j hj _ {_ _ _} ht => test_reads (own hj) ht) hk (findIf_spec seg_rng.left)

/-- the old value is an element of the range: it is overwritten when the loop reaches it -/
theorem replace_oldOwn {eq : V → V → Bool} {new : Loc} {w x : V} {A B : List V} (hx : Reads F new x) (he : eq w w = true) :
    Triple nf (seg c i (A ++ w :: B) ∗ F) (replace c i (i + (A ++ w :: B).length) (c (i + A.length)) new eq)
      (fun r => ⌜r = (A.filter fun v => eq v w).length + 1 + (B.filter fun v => eq v x).length⌝ ∗
        seg c i ((A.map fun v => if eq v w then x else v) ++ x :: B.map fun v => if eq v x then x else v) ∗ F) := by
  unfold replace
  have hAl : A.length < (A ++ w :: B).length := by simp
  have hAv : (A ++ w :: B)[A.length] = w := by simp
  have hA0 : (A ++ w :: B)[A.length]? = some w := by simp
  refine Triple.bind (findBy_spec (P := seg c i (A ++ w :: B) ∗ F) (w := w) seg_rng.left (by have := own (c := c) (i := i) (F := F) hAl; rw [hAv] at this; exact this)) ?_
  intro r
  apply Triple.pure_left
  intro hr
  obtain ⟨j, hj, h1, h2⟩ : ∃ j, j ≤ A.length ∧ r.2 = i + j ∧ ∀ v ∈ A.take j, eq v w = false := by
    rcases hr with ⟨_, j, ⟨h1, h2, h3⟩, h4⟩ | ⟨_, _, h⟩
    · refine ⟨j, ?_, h4, ?_⟩
      · apply Nat.le_of_not_lt
        intro hlt
        exact h3 A.length hlt ⟨w, hA0, he⟩
      · intro v hv
        obtain ⟨t, ht, rfl⟩ := List.mem_iff_getElem.1 hv
        simp only [List.length_take] at ht
        rw [List.getElem_take, Bool.eq_false_iff]
        intro hq
        exact h3 t (by omega) ⟨A[t]'(by omega), by rw [List.getElem?_append_left (by omega)]; simp, hq⟩
    · exact absurd ⟨w, hA0, he⟩ (h A.length hAl)
  rw [h1, ← bind_pure (replaceLoop _ _ _ _ _ _)]
  refine replaceLoop_own (us := A ++ w :: B) (j := j) (e := A.length) (x := x) (ok := fun us => us[A.length]? = some w) (q := fun v => eq v w)
    (fun us t ht hu {_ _ _} hh => ?_) (fun us hu => hx.right) (fun us t _ ht hu => ?_) hj (by simp) hA0 (Nat.le_refl _) (Nat.le_of_lt hAl) ?_
  · obtain ⟨hkl, hkv⟩ := List.getElem?_eq_some_iff.1 hu
    exact cmp_reads (own ht) (hkv ▸ own hkl) hh
  · rw [List.getElem?_set, if_neg (by omega)]; exact hu
  have e1 : (A ++ w :: B).take A.length = A := by simp
  have e2 : (A ++ w :: B).drop A.length = w :: B := by simp
  have e3 : (A ++ w :: B).take j = A.take j := by rw [List.take_append_of_le_length hj]
  have hA' : ((A.take j).map fun v => if eq v w then x else v) = A.take j :=
    (List.map_congr_left (g := id) fun v hv => by simp [h2 v hv]).trans (List.map_id _)
  have e4 : A.take j ++ (A.drop j).map (fun v => if eq v w then x else v) = A.map (fun v => if eq v w then x else v) := by
    conv => rhs; rw [← List.take_append_drop j A, List.map_append, hA']
  have e5 : (A.filter fun v => eq v w) = (A.drop j).filter fun v => eq v w := by
    conv => lhs; rw [← List.take_append_drop j A, List.filter_append]
    rw [List.filter_eq_nil_iff.2 fun v hv => by simp [h2 v hv], List.nil_append]
  rw [e1, e2, e3, e4, ← e5]
  generalize hA2 : A.map (fun v => if eq v w then x else v) = A'
  have hlen : A'.length = A.length := by rw [← hA2]; simp
  rw [← hlen]
  have hl : (A ++ w :: B).length = (A' ++ w :: B).length := by simp [hlen]
  rw [hl]
  rw [replaceLoop, if_pos (by simp), bind_assoc]
  have hAl' : A'.length < (A' ++ w :: B).length := by simp
  have hAv' : (A' ++ w :: B)[A'.length] = w := by simp
  have o1 := own (c := c) (i := i) (F := F) hAl'
  rw [hAv'] at o1
  refine cmp_reads o1 o1 ?_
  rw [if_pos he, bind_assoc]
  refine asg_at (k := A'.length) hAl' hx.right ?_
  have e6 : (A' ++ w :: B).set A'.length x = A' ++ x :: B := by simp
  rw [e6, Nat.add_assoc i A'.length 1]
  have hl2 : (A' ++ w :: B).length = (A' ++ x :: B).length := by simp
  rw [hl2]
  refine replaceLoop_own (us := A' ++ x :: B) (j := A'.length + 1) (e := (A' ++ x :: B).length) (x := x) (ok := fun us => us[A'.length]? = some x) (q := fun v => eq v x)
    (fun us t ht hu {_ _ _} hh => ?_) (fun us hu => hx.right) (fun us t h1 h2 hu => ?_) (by simp) (Nat.le_refl _) (by simp) (Nat.le_refl _) (Nat.le_refl _) ?_
  · obtain ⟨hkl, hkv⟩ := List.getElem?_eq_some_iff.1 hu
    exact cmp_reads (own ht) (hkv ▸ own hkl) hh
  · rw [List.getElem?_set, if_neg (by omega)]; exact hu
  have e7 : (A' ++ x :: B).take (A'.length + 1) = A' ++ [x] := by rw [List.take_append]; simp [List.take_of_length_le]
  have e8 : ((A' ++ x :: B).take (A' ++ x :: B).length).drop (A'.length + 1) = B := by rw [List.take_length]; simp [List.drop_append]
  rw [e7, e8, bind_pure]
  refine replaceLoop_end (ent_pure_right ?_ ?_)
  · omega
  · simp only [List.drop_length, List.append_nil, List.append_assoc, List.singleton_append]
    exact ent_refl _

/-- the loop of remove while the value is not overwritten -/
theorem removeLoop_own {eq : V → V → Bool} {k a j n : Nat} {w : V} (hk : us[k]? = some w) (haj : a < j) (hj : j ≤ us.length)
    (hs : a + ((us.drop j).filter fun v => !eq v w).length ≤ k) :
    Triple nf (seg c i us ∗ F) (removeLoop (fun t => cmp eq (c t) (c (i + k))) c (i + a) (i + j) (i + us.length) n)
      (fun r => ⌜r = (n + ((us.drop j).filter fun v => eq v w).length, i + a + ((us.drop j).filter fun v => !eq v w).length)⌝ ∗
        (∃ₛ T, ⌜(us.take a ++ ((us.drop j).filter fun v => !eq v w) ++ T).length = us.length⌝ ∗ seg c i (us.take a ++ ((us.drop j).filter fun v => !eq v w) ++ T)) ∗ F) := by
  obtain ⟨m, hm⟩ : ∃ m, m = us.length - j := ⟨_, rfl⟩
  induction m generalizing us a j n with
  | zero =>
    obtain rfl : j = us.length := by omega
    rw [removeLoop, if_neg (by simp)]
    apply Triple.ret
    refine ent_pure_right (by simp) ?_
    refine sep_mono (ent_ex_right (us.drop a) (ent_pure_right (by simp) ?_)) (ent_refl F)
    simp only [List.drop_length, List.filter_nil, List.append_nil, List.take_append_drop]
    exact ent_refl _
  | succ m ih =>
    have hju : j < us.length := by omega
    obtain ⟨hkl, hkv⟩ := List.getElem?_eq_some_iff.1 hk
    have hd : us.drop j = us[j] :: us.drop (j + 1) := List.drop_eq_getElem_cons hju
    rw [hd] at hs
    rw [removeLoop, if_pos (by omega)]
    refine cmp_reads (own hju) (hkv ▸ own hkl) ?_
    cases hq : eq us[j] w with
    | false =>
      rw [List.filter_cons_of_pos (by simp [hq])] at hs
      simp only [List.length_cons] at hs
      simp only [Bool.not_false, ↓reduceIte]
      refine asg_at (by omega) (own hju) ?_
      rw [Nat.add_assoc i a 1, Nat.add_assoc i j 1]
      have hdd : (us.set a us[j]).drop (j + 1) = us.drop (j + 1) := by rw [List.drop_set, if_pos (by omega)]
      have hk' : (us.set a us[j])[k]? = some w := by rw [List.getElem?_set, if_neg (by omega)]; exact hk
      have := ih (us := us.set a us[j]) (a := a + 1) (j := j + 1) (n := n) hk' (by omega) (by simp; omega) (by rw [hdd]; omega) (by simp; omega)
      rw [hdd, List.length_set, take_set_next (by omega)] at this
      refine Triple.post this fun r => ?_
      refine ent_pure_left fun h => ent_pure_right ?_ ?_
      · rw [h, hd, List.filter_cons_of_neg (by simp [hq]), List.filter_cons_of_pos (by simp [hq])]
        simp; omega
      · rw [hd, List.filter_cons_of_pos (by simp [hq])]
        simp only [List.append_assoc, List.singleton_append, List.cons_append, List.nil_append]
        exact ent_refl _
    | true =>
      rw [List.filter_cons_of_neg (by simp [hq])] at hs
      simp only [Bool.not_true, Bool.false_eq_true, ↓reduceIte]
      rw [Nat.add_assoc i j 1]
      have := ih (us := us) (a := a) (j := j + 1) (n := n + 1) hk (by omega) (by omega) hs (by omega)
      refine Triple.post this fun r => ?_
      refine ent_pure_left fun h => ent_pure_right ?_ ?_
      · rw [h, hd, List.filter_cons_of_pos (by simp [hq]), List.filter_cons_of_neg (by simp [hq])]
        simp; omega
      · rw [hd, List.filter_cons_of_neg (by simp [hq])]
        exact ent_refl _

theorem remove_own {eq : V → V → Bool} {k : Nat} {w : V} (hk : vs[k]? = some w) (hs : (vs.filter fun v => !eq v w).length ≤ k) :
    Triple nf (seg c i vs ∗ F) (remove c i (i + vs.length) (c (i + k)) eq)
      (fun r => ⌜r = ((vs.filter fun v => eq v w).length, i + (vs.filter fun v => !eq v w).length)⌝ ∗
        (∃ₛ T, ⌜T.length = (vs.filter fun v => eq v w).length⌝ ∗ seg c i ((vs.filter fun v => !eq v w) ++ T)) ∗ F) := by
  unfold remove
  obtain ⟨hkl, hkv⟩ := List.getElem?_eq_some_iff.1 hk
  have o1 := own (c := c) (i := i) (F := F) hkl
  rw [hkv] at o1
  refine Triple.bind (findBy_spec (w := w) seg_rng.left o1) ?_
  intro r
  apply Triple.pure_left
  intro hr
  obtain ⟨A, B, hAB, h1, h2, h3⟩ := found_split (q := fun v => eq v w) hr
  have fA : (A.filter fun v => eq v w) = [] := List.filter_eq_nil_iff.2 fun v hv => by simp [h2 v hv]
  have fA' : (A.filter fun v => !eq v w) = A := List.filter_eq_self.2 fun v hv => by simp [h2 v hv]
  have hsum : (vs.filter fun v => eq v w).length + (vs.filter fun v => !eq v w).length = vs.length := by
    rw [← List.countP_eq_length_filter, ← List.countP_eq_length_filter]
    have := List.length_eq_countP_add_countP (fun v => eq v w) (l := vs)
    simp only [Bool.not_eq_true, Bool.decide_eq_false] at this
    omega
  cases B with
  | nil =>
    simp only [List.append_nil] at hAB
    subst hAB
    rw [h1, if_neg (by simp)]
    apply Triple.ret
    refine ent_pure_right (by rw [fA, fA']; rfl) ?_
    refine sep_mono (ent_ex_right [] (ent_pure_right (by rw [fA]) ?_)) (ent_refl F)
    rw [fA', List.append_nil]
    exact ent_refl _
  | cons v B =>
    have hv := h3 v B rfl
    have hd : vs.drop (A.length + 1) = B := by rw [hAB]; simp [List.drop_append]
    have ht : vs.take A.length = A := by rw [hAB]; simp
    have f1 : (vs.filter fun v => eq v w) = v :: B.filter fun v => eq v w := by rw [hAB, List.filter_append, fA, List.filter_cons_of_pos (by simpa using hv)]; rfl
    have f2 : (vs.filter fun v => !eq v w) = A ++ B.filter fun v => !eq v w := by rw [hAB, List.filter_append, fA', List.filter_cons_of_neg (by simp [hv])]
    have hl : A.length < vs.length := by rw [hAB]; simp
    rw [h1, if_pos (by omega), Nat.add_assoc]
    have := removeLoop_own (nf := nf) (c := c) (i := i) (F := F) (us := vs) (eq := eq) (k := k) (a := A.length) (j := A.length + 1) (n := 1) hk (by omega) (by omega)
      (by rw [hd]; rw [f2, List.length_append] at hs; exact hs)
    rw [hd, ht] at this
    refine Triple.post this fun r => ?_
    refine ent_pure_left fun h => ent_pure_right ?_ ?_
    · rw [h, f1, f2]; simp; omega
    · refine sep_mono (ent_ex_left fun T => ent_pure_left fun hT => ent_ex_right T (ent_pure_right ?_ ?_)) (ent_refl F)
      · rw [← f2, List.length_append] at hT; omega
      · rw [f2]; exact ent_refl _

/-- what happens in general: `a b a` with the first `a` as the value becomes `b a a`, as if only one element had been removed -/
theorem remove_own_wrong {eq : V → V → Bool} {a b : V} (h1 : eq a a = true) (h2 : eq b a = false) (h3 : eq a b = false) :
    Triple nf (seg c i [a, b, a] ∗ F) (remove c i (i + 3) (c i) eq) (fun r => ⌜r = (1, i + 2)⌝ ∗ seg c i [b, a, a] ∗ F) := by
  have g0 : ∀ us : List V, (h : 0 < us.length) → Reads (seg c i us ∗ F) (c i) us[0] := fun us h => own (k := 0) h
  unfold remove
  refine Triple.bind (findBy_spec (c := c) (i := i) (vs := [a, b, a]) (w := a) seg_rng.left (g0 _ (by simp))) ?_
  intro r
  apply Triple.pure_left
  intro hr
  have hr2 : r.2 = i := by
    rcases hr with ⟨_, j, ⟨_, _, h5⟩, h4⟩ | ⟨_, _, h⟩
    · cases j with
      | zero => exact h4
      | succ j => exact absurd ⟨a, rfl, h1⟩ (h5 0 (by omega))
    · exact absurd ⟨a, rfl, h1⟩ (h 0 (by simp))
  rw [hr2, if_pos (by omega), removeLoop, if_pos (by omega)]
  refine cmp_reads (own (k := 1) (us := [a, b, a]) (by simp)) (g0 _ (by simp)) ?_
  simp only [List.getElem_cons_succ, List.getElem_cons_zero, h2, Bool.not_false, ↓reduceIte]
  refine asg_at (k := 0) (us := [a, b, a]) (by simp) (own (k := 1) (us := [a, b, a]) (by simp)) ?_
  rw [removeLoop, if_pos (by omega)]
  simp only [List.set_cons_zero, List.getElem_cons_succ, List.getElem_cons_zero]
  refine cmp_reads (own (k := 2) (us := [b, b, a]) (by simp)) (g0 _ (by simp)) ?_
  simp only [List.getElem_cons_succ, List.getElem_cons_zero, h3, Bool.not_false, ↓reduceIte]
  refine asg_at (k := 1) (us := [b, b, a]) (by simp) (own (k := 2) (us := [b, b, a]) (by simp)) ?_
  rw [removeLoop, if_neg (by omega)]
  exact Triple.ret (ent_pure_right rfl (ent_refl _))

/-- swapping an element with itself -/
theorem swp_self {l : Loc} {v : V} : Triple nf (pts l (.obj (some v)) ∗ F) (swp l l) (fun _ => pts l (.obj (some v)) ∗ F) := by
  unfold swp asg wr
  simp only [bind_assoc]
  steps
  apply Triple.ret
  cancel

end CC.Algo
