import Verif.Props.COwnAll
/-!
# Property C67, continued: swap, partition_copy, max, min, clamp, and the algorithms that leak

`orphans e ws`: what objects with the values `ws` owned, without the objects: nothing in the program refers to it any more.
-/
namespace CC.Own
open CC CC.Tac
open CC.Algo (Slots seg Rng uniq over cmp)
variable {V W : Type} {o : AOps V} (e : AElem o W) {P : HProp W} {c c' d : Slots} {i i' j k n : Nat} {vs us ws xs ys : List W} {value new : Loc} {w x : W} {comp : W → W → Bool} {comp2 eq2 : Loc → Loc → M V Bool}

/-- `algo_swap`, `algo_iter_swap`: two objects exchange their values; the temporary object is gone -/
theorem C67_swap (l l' : Loc) (a b : W) : Triple True (obj e l a ∗ obj e l' b) (Own.swap o l l') (fun _ => obj e l b ∗ obj e l' a) := by
  refine transfer1 (e := e) S_swp (Algo.C48_swap (nf := True) l l' a b) ?_ ?_ <;> intros <;> simp only [own_sep, own_pts]

/-- `algo_partition_copy` -/
theorem C67_partition_copy (pred : W → Bool) (h : Rng P c i vs) (hl : (vs.filter pred).length ≤ us.length) (hl' : (vs.filter fun v => !pred v).length ≤ ws.length)
    {pred2 : Loc → M V Bool} (hg : Tests e pred2 pred) :
    Triple True (Own e P ∗ oseg e d j us ∗ oseg e c' k ws) (Own.partitionCopy o c i (i + vs.length) d j c' k pred2)
      (fun r => ⌜r = (vs.length, j + (vs.filter pred).length, k + (vs.filter fun v => !pred v).length)⌝ ∗ Own e P ∗
        oseg e d j (over us (vs.filter pred)) ∗ oseg e c' k (over ws (vs.filter fun v => !pred v))) := by
  refine transfer1 (e := e) (S_partitionCopy hg) (Algo.C49_partition_copy (nf := True) pred h hl hl') ?_ ?_ <;> intros <;> simp only [own_sep, own_hpure, own_ex, own_seg]

/-! ## new objects for the caller -/

/-- a comparison of two objects that are somewhere in the fragment -/
theorem compares_own {l l' : Loc} {a b : W} (hf : Compares e comp2 comp) (hx : Reads P l a) (hy : Reads P l' b) :
    Triple True (Own e P) (comp2 l l') (fun r => ⌜r = comp a b⌝ ∗ Own e P) := by
  have ht : Triple True P (cmp comp l l') (fun r => ⌜r = comp a b⌝ ∗ P) := by
    rw [← bind_pure (cmp comp l l')]
    refine Algo.cmp_reads hx hy ?_
    apply Triple.ret
    cancel
  refine transfer1 (e := e) (S_cmp hf) ht rfl ?_
  intro r
  rw [own_sep, own_hpure]

/-- the copy constructor on a new block, from an object that is somewhere in the fragment -/
theorem place_own {l : Loc} {a : W} {t : Addr} {y : Val V} (hx : Reads P l a) :
    Triple True (Own e P ∗ blk t 1 ∗ pts (t, 1) y) (o.copy (t, 1) l) (fun _ => tmp e t a ∗ Own e P) := by
  have ht : Triple True P (ldV l) (fun r => ⌜r = a⌝ ∗ P) := by
    rw [← bind_pure (ldV l)]
    refine ldV_reads hx ?_
    apply Triple.ret
    cancel
  have := transferG (F := blk t 1 ∗ pts (t, 1) y ∗ emp) (S_place (e := e) (t := t) (y := y) (l := l) (F := emp)) ht
  rw [sep_emp] at this
  refine Triple.post this fun _ => ent_ex_left fun r => ?_
  rw [own_sep, own_hpure, sep_assoc]
  refine ent_pure_left fun h => ?_
  rw [h, sep_emp]
  cancel

/-- `algo_max_by`: a new object with the value of one of the arguments -/
theorem C67_max (hf : Compares e comp2 comp) {l l' : Loc} {a b : W} (hx : Reads P l a) (hy : Reads P l' b) :
    Triple True (Own e P) (Own.maxBy o l l' comp2) (fun r => ⌜r ≠ 0⌝ ∗ blk r 1 ∗ obj e (r, 1) (if comp a b then b else a) ∗ Own e P) := by
  unfold Own.maxBy
  apply mallocO1
  · intro h; exact absurd trivial h
  intro r hr
  rw [if_neg hr]
  refine Triple.pre (P' := Own e P ∗ blk r 1 ∗ pts (r, 1) (.obj none)) (by cancel) ?_
  refine Triple.bind (Triple.frame (compares_own e hf hx hy)) fun bb => ?_
  rw [sep_assoc]
  refine Triple.pure_left fun hbb => ?_
  subst hbb
  have : Triple True (Own e P ∗ blk r 1 ∗ pts (r, 1) (.obj none)) (o.copy (r, 1) (if comp a b = true then l' else l)) (fun _ => tmp e r (if comp a b then b else a) ∗ Own e P) := by
    by_cases h : comp a b = true
    · rw [if_pos h, if_pos h]; exact place_own e hy
    · rw [if_neg h, if_neg h]; exact place_own e hx
  refine Triple.bind this fun _ => ?_
  apply Triple.ret
  unfold tmp
  exact ent_pure_right hr (by cancel)

/-- `algo_min_by` -/
theorem C67_min (hf : Compares e comp2 comp) {l l' : Loc} {a b : W} (hx : Reads P l a) (hy : Reads P l' b) :
    Triple True (Own e P) (Own.minBy o l l' comp2) (fun r => ⌜r ≠ 0⌝ ∗ blk r 1 ∗ obj e (r, 1) (if comp a b then a else b) ∗ Own e P) := by
  unfold Own.minBy
  apply mallocO1
  · intro h; exact absurd trivial h
  intro r hr
  rw [if_neg hr]
  refine Triple.pre (P' := Own e P ∗ blk r 1 ∗ pts (r, 1) (.obj none)) (by cancel) ?_
  refine Triple.bind (Triple.frame (compares_own e hf hx hy)) fun bb => ?_
  rw [sep_assoc]
  refine Triple.pure_left fun hbb => ?_
  subst hbb
  have : Triple True (Own e P ∗ blk r 1 ∗ pts (r, 1) (.obj none)) (o.copy (r, 1) (if comp a b = true then l else l')) (fun _ => tmp e r (if comp a b then a else b) ∗ Own e P) := by
    by_cases h : comp a b = true
    · rw [if_pos h, if_pos h]; exact place_own e hx
    · rw [if_neg h, if_neg h]; exact place_own e hy
  refine Triple.bind this fun _ => ?_
  apply Triple.ret
  unfold tmp
  exact ent_pure_right hr (by cancel)

/-- `algo_clamp_by`: a new object with a value between the bounds -/
theorem C67_clamp (hsw : StrictWeak comp) (hf : Compares e comp2 comp) {v lo hi : Loc} {a y z : W} (hv : Reads P v a) (hlo : Reads P lo y) (hhi : Reads P hi z) (hlh : comp z y = false) :
    Triple True (Own e P) (Own.clamp o v lo hi comp2) (fun r => ∃ₛ q, ⌜comp q y = false ∧ comp z q = false ∧ (comp a y = true ∧ q = y ∨ comp a y = false ∧ comp z a = false ∧ comp a z = true ∧ q = a ∨ comp a z = false ∧ q = z)⌝ ∗
      ⌜r ≠ 0⌝ ∗ blk r 1 ∗ obj e (r, 1) q ∗ Own e P) := by
  unfold Own.clamp
  refine Triple.bind (compares_own e hf hhi hlo) fun bb => ?_
  refine Triple.pure_left fun hbb => ?_
  subst hbb
  rw [hlh]
  step
  · rfl
  refine Triple.bind (compares_own e hf hv hhi) fun bb => ?_
  refine Triple.pure_left fun hbb => ?_
  subst hbb
  by_cases h : comp a z = true
  · rw [if_pos h]
    refine Triple.post (C67_max e hf hv hlo) fun r => ?_
    apply ent_ex_right (if comp a y then y else a)
    refine ent_pure_right ?_ (ent_refl _)
    by_cases h2 : comp a y = true
    · simp [h2, hlh, hsw.irrefl]
    · simp [h, h2, hsw.asymm h]
  · rw [if_neg h]
    refine Triple.post (C67_min e hf hv hhi) fun r => ?_
    apply ent_ex_right z
    refine ent_pure_right ?_ (by rw [if_neg h]; exact ent_refl _)
    simp [h, hlh, hsw.irrefl]

/-! ## push_heap: the temporary object is freed without being destroyed -/

/-- what objects with these values owned -/
def orphans (e : AElem o W) : List W → HProp V
  | [] => emp
  | w :: ws => (∃ₛ x, e.own x w) ∗ orphans e ws

theorem orphans_append {as bs : List W} : orphans e (as ++ bs) = (orphans e as ∗ orphans e bs) := by
  induction as with
  | nil => simp [orphans]
  | cons a as ih => simp only [List.cons_append, orphans, ih, sep_assoc]

theorem orphans_plain (hp : e.Plain) : orphans e ws ⊢ₛ emp := by
  induction ws with
  | nil => exact ent_refl _
  | cons w ws ih =>
    rw [← sep_emp (emp : HProp V)]
    exact sep_mono (ent_ex_left fun x => hp.drop x w) ih

/-- `algo_push_heap_by` gives a heap, but whatever one object owned is left over: it belongs to no object of the range, and the caller has no access to it (violates C67) -/
theorem C67_push_heap_violated (hsw : StrictWeak comp) (hf : Compares e comp2 comp) (v : W) (hne : vs ≠ []) (hh : IsHeap comp vs) :
    Triple True (oseg e c i (vs ++ [v])) (Own.pushHeap o c i (i + (vs ++ [v]).length) comp2)
      (fun _ => (∃ₛ ws, ⌜ws.Perm (vs ++ [v]) ∧ IsHeap comp ws⌝ ∗ oseg e c i ws) ∗ ∃ₛ w, orphans e [w]) := by
  have h2 : ¬ (i + (vs ++ [v]).length) - i < 2 := by
    have := List.length_pos_iff.2 hne
    simp; omega
  have := transferG (S_pushHeap_leak (e := e) (F := emp) hf h2) (Algo.C43_push_heap (nf := True) (c := c) (i := i) hsw v hh)
  rw [sep_emp, own_seg] at this
  refine Triple.post this fun _ => ent_ex_left fun _ => ?_
  simp only [own_sep, own_hpure, own_ex, own_seg, sep_emp, orphans]
  refine sep_mono (ent_refl _) ?_
  exact ent_ex_left fun x => ent_ex_left fun w => ent_ex_right w (ent_ex_right x (ent_refl _))

/-- the part that holds: elements that own nothing -/
theorem C67_push_heap_partial (hp : e.Plain) (hsw : StrictWeak comp) (hf : Compares e comp2 comp) (v : W) (hh : IsHeap comp vs) :
    Triple True (oseg e c i (vs ++ [v])) (Own.pushHeap o c i (i + (vs ++ [v]).length) comp2)
      (fun _ => ∃ₛ ws, ⌜ws.Perm (vs ++ [v]) ∧ IsHeap comp ws⌝ ∗ oseg e c i ws) := by
  refine transfer1 (e := e) (S_pushHeap (fun x w => by rw [sep_emp]; exact hp.drop x w) hf) (Algo.C43_push_heap (nf := True) hsw v hh) ?_ ?_ <;> intros <;> simp only [own_sep, own_hpure, own_ex, own_seg]

/-! ## partial_sort: uses push_heap -/

theorem orphans_take (x : Val V) (w : W) : (e.own x w ∗ (∃ₛ ws, orphans e ws)) ⊢ₛ ∃ₛ ws, orphans e ws := by
  rw [sep_comm, hex_sep]
  refine ent_ex_left fun ws => ?_
  apply ent_ex_right (w :: ws)
  rw [sep_comm]
  exact sep_mono (ent_ex_right x (ent_refl _)) (ent_refl _)

/-- `algo_partial_sort_by` for all elements: sorted and nothing in the range is lost or shared, but some leftovers of temporary objects may remain -/
theorem C67_partial_sort_partial (hsw : StrictWeak comp) (hf : Compares e comp2 comp) (A B : List W) :
    Triple True (oseg e c i (A ++ B)) (Own.partialSort o c i (i + A.length) (i + A.length + B.length) comp2)
      (fun _ => (∃ₛ A', ∃ₛ B', ⌜(A' ++ B').Perm (A ++ B) ∧ A'.length = A.length ∧ Sorted comp A' ∧ (∀ a, a ∈ A' → ∀ b, b ∈ B' → comp b a = false)⌝ ∗
        oseg e c i (A' ++ B')) ∗ ∃ₛ ws, orphans e ws) := by
  have := transfer (S_partialSort (e := e) (orphans_take e) hf) (Algo.C42_partial_sort (nf := True) (c := c) (i := i) hsw A B)
  simp only [own_sep, own_hpure, own_ex, own_seg] at this
  refine Triple.pre ?_ this
  refine ent_trans (Q := oseg e c i (A ++ B) ∗ emp) (by cancel) ?_
  exact sep_mono (ent_refl _) (ent_ex_right [] (ent_refl _))

/-- `algo_partial_sort_by` for elements that own nothing: nothing remains -/
theorem C67_partial_sort_plain_partial (hp : e.Plain) (hsw : StrictWeak comp) (hf : Compares e comp2 comp) (A B : List W) :
    Triple True (oseg e c i (A ++ B)) (Own.partialSort o c i (i + A.length) (i + A.length + B.length) comp2)
      (fun _ => ∃ₛ A', ∃ₛ B', ⌜(A' ++ B').Perm (A ++ B) ∧ A'.length = A.length ∧ Sorted comp A' ∧ (∀ a, a ∈ A' → ∀ b, b ∈ B' → comp b a = false)⌝ ∗
        oseg e c i (A' ++ B')) := by
  refine transfer1 (e := e) (S_partialSort (fun x w => by rw [sep_emp]; exact hp.drop x w) hf) (Algo.C42_partial_sort (nf := True) hsw A B) ?_ ?_ <;> intros <;> simp only [own_sep, own_hpure, own_ex, own_seg]

/-- `algo_partial_sort_copy_by` for all elements, with leftovers -/
theorem C67_partial_sort_copy_partial (hsw : StrictWeak comp) (hf : Compares e comp2 comp) (hR : Rng P c i vs) :
    Triple True (Own e P ∗ oseg e d j us) (Own.partialSortCopy o c i (i + vs.length) d j (j + us.length) comp2)
      (fun r => (⌜r = (min vs.length us.length, j + min vs.length us.length)⌝ ∗ Own e P ∗
        ∃ₛ ws, ∃ₛ rest, ⌜(ws ++ rest).Perm vs ∧ ws.length = min vs.length us.length ∧ Sorted comp ws ∧ (∀ a, a ∈ ws → ∀ b, b ∈ rest → comp b a = false)⌝ ∗
        oseg e d j (over us ws)) ∗ ∃ₛ ws, orphans e ws) := by
  have := transfer (S_partialSortCopy (e := e) (orphans_take e) hf) (Algo.C42_partial_sort_copy (nf := True) (d := d) (j := j) (us := us) hsw hR)
  simp only [own_sep, own_hpure, own_ex, own_seg] at this
  refine Triple.pre ?_ this
  refine ent_trans (Q := (Own e P ∗ oseg e d j us) ∗ emp) (by cancel) ?_
  exact sep_mono (ent_refl _) (ent_ex_right [] (ent_refl _))

/-- and for elements that own nothing -/
theorem C67_partial_sort_copy_plain_partial (hp : e.Plain) (hsw : StrictWeak comp) (hf : Compares e comp2 comp) (hR : Rng P c i vs) :
    Triple True (Own e P ∗ oseg e d j us) (Own.partialSortCopy o c i (i + vs.length) d j (j + us.length) comp2)
      (fun r => ⌜r = (min vs.length us.length, j + min vs.length us.length)⌝ ∗ Own e P ∗
        ∃ₛ ws, ∃ₛ rest, ⌜(ws ++ rest).Perm vs ∧ ws.length = min vs.length us.length ∧ Sorted comp ws ∧ (∀ a, a ∈ ws → ∀ b, b ∈ rest → comp b a = false)⌝ ∗
        oseg e d j (over us ws)) := by
  refine transfer1 (e := e) (S_partialSortCopy (fun x w => by rw [sep_emp]; exact hp.drop x w) hf) (Algo.C42_partial_sort_copy (nf := True) hsw hR) ?_ ?_ <;> intros <;> simp only [own_sep, own_hpure, own_ex, own_seg]

/-! ## generate: every object but the last is overwritten without being destroyed -/

/-- the generator constructs, in its `k`-th call, an object with the value `val k` in the raw memory it is given -/
def Generates (e : AElem o W) (gen : Nat → Loc → M V Unit) (val : Nat → W) : Prop := ∀ k l x, Triple True (pts l x) (gen k l) (fun _ => obj e l (val k))

theorem generateLoop_spec {gen : Nat → Loc → M V Unit} {val : Nat → W} (hg : Generates e gen val) {t : Addr} (vs : List W) : ∀ (i n : Nat) (x : Val V), 
    Triple True (oseg e c i vs ∗ pts (t, 1) x) (generateLoop o c gen t i (i + vs.length) n)
      (fun r => ⌜r = n + vs.length⌝ ∗ oseg e c i ((List.range' n vs.length).map val) ∗
        (if vs = [] then pts (t, 1) x else obj e (t, 1) (val (n + vs.length - 1)) ∗ orphans e ((List.range' n (vs.length - 1)).map val))) := by
  induction vs with
  | nil =>
    intro i n x
    rw [generateLoop]
    simp only [List.length_nil, Nat.add_zero, ne_eq, not_true_eq_false, ↓reduceIte, List.range'_zero, List.map_nil]
    apply Triple.ret
    exact ent_pure_right rfl (ent_refl _)
  | cons v vs ih =>
    intro i n x
    rw [generateLoop]
    have hne : i ≠ i + (v :: vs).length := by simp
    simp only [hne, ne_eq, not_false_eq_true, ↓reduceIte]
    step
    refine Triple.pre (P' := pts (t, 1) (.obj none) ∗ (obj e (c i) v ∗ oseg e c (i + 1) vs)) (by rw [oseg]; cancel) ?_
    refine Triple.bind (Triple.frame (hg n (t, 1) _)) fun _ => ?_
    refine Triple.pre (P' := (obj e (c i) v ∗ obj e (t, 1) (val n)) ∗ oseg e c (i + 1) vs) (by cancel) ?_
    refine Triple.bind (Triple.frame (e.assign_spec (c i) (t, 1) v (val n))) fun _ => ?_
    by_cases hv : vs = []
    · subst hv
      rw [generateLoop]
      simp only [List.length_cons, List.length_nil, Nat.zero_add, ne_eq, not_true_eq_false, ↓reduceIte, reduceCtorEq]
      apply Triple.ret
      simp only [List.range'_one, List.map_cons, List.map_nil, oseg, Nat.sub_self, List.range'_zero, orphans, Nat.add_sub_cancel]
      exact ent_pure_right trivial (by cancel)
    · refine Triple.pre (P' := ∃ₛ y, (oseg e c (i + 1) vs ∗ pts (t, 1) y) ∗ (e.own y (val n) ∗ obj e (c i) (val n))) ?_ ?_
      · unfold obj cell
        refine ent_trans (Q := (∃ₛ y, pts (t, 1) y ∗ e.own y (val n)) ∗ ((∃ₛ y, pts (c i) y ∗ e.own y (val n)) ∗ oseg e c (i + 1) vs)) (by cancel) ?_
        rw [hex_sep]
        refine ent_ex_left fun y => ent_ex_right y ?_
        cancel
      refine Triple.ex_left fun y => ?_
      rw [show i + (v :: vs).length = i + 1 + vs.length by simp; omega]
      refine Triple.post (Triple.frame (ih (i + 1) (n + 1) y)) fun r => ?_
      rw [if_neg hv, if_neg (by simp)]
      obtain ⟨u, us, rfl⟩ := List.exists_cons_of_ne_nil hv
      rw [sep_assoc]
      refine ent_pure_left fun hr => ent_pure_right (by simp at hr ⊢; omega) ?_
      have h1 : n + 1 + (u :: us).length - 1 = n + (v :: u :: us).length - 1 := by simp; omega
      rw [h1]
      have h2 : (List.range' n (v :: u :: us).length).map val = val n :: (List.range' (n + 1) (u :: us).length).map val := by
        rw [List.length_cons, List.range'_succ, List.map_cons]
      have h3 : (List.range' n ((v :: u :: us).length - 1)).map val = val n :: (List.range' (n + 1) ((u :: us).length - 1)).map val := by
        rw [show (v :: u :: us).length - 1 = us.length + 1 by simp, List.range'_succ, List.map_cons]; simp
      rw [h2, h3]
      simp only [oseg, orphans]
      refine ent_trans (Q := (∃ₛ x, e.own x (val n)) ∗ (obj e (c i) (val n) ∗ oseg e c (i + 1) ((List.range' (n + 1) (u :: us).length).map val) ∗
        obj e (t, 1) (val (n + (v :: u :: us).length - 1)) ∗ orphans e ((List.range' (n + 1) ((u :: us).length - 1)).map val))) ?_ (by cancel)
      refine ent_trans (Q := e.own y (val n) ∗ (obj e (c i) (val n) ∗ oseg e c (i + 1) ((List.range' (n + 1) (u :: us).length).map val) ∗
        obj e (t, 1) (val (n + (v :: u :: us).length - 1)) ∗ orphans e ((List.range' (n + 1) ((u :: us).length - 1)).map val))) (by cancel) ?_
      exact sep_mono (ent_ex_right y (ent_refl _)) (ent_refl _)

/-- `algo_generate` on `n` elements leaves over what `n - 1` objects owned (violates C67) -/
theorem C67_generate_violated {gen : Nat → Loc → M V Unit} {val : Nat → W} (hg : Generates e gen val) (hne : vs ≠ []) :
    Triple True (oseg e c i vs) (Own.generate o c i (i + vs.length) gen)
      (fun r => ⌜r = vs.length⌝ ∗ oseg e c i ((List.range vs.length).map val) ∗ orphans e ((List.range (vs.length - 1)).map val)) := by
  unfold Own.generate
  apply mallocO1
  · intro h; exact absurd trivial h
  intro t ht
  rw [if_neg ht]
  refine Triple.pre (P' := (oseg e c i vs ∗ pts (t, 1) (.obj none)) ∗ blk t 1) (by cancel) ?_
  refine Triple.bind (Triple.frame (generateLoop_spec e hg vs i 0 _)) fun r => ?_
  rw [if_neg hne]
  refine Triple.pre (P' := tmp e t (val (0 + vs.length - 1)) ∗ (⌜r = vs.length⌝ ∗ oseg e c i ((List.range vs.length).map val) ∗ orphans e ((List.range (vs.length - 1)).map val))) ?_ ?_
  · unfold tmp
    rw [Nat.zero_add, ← List.range_eq_range', ← List.range_eq_range']
    cancel
  refine Triple.bind (Triple.frame (drop_spec (e := e))) fun _ => ?_
  rw [emp_sep]
  apply Triple.ret
  exact ent_refl _

/-- the part that holds: elements that own nothing -/
theorem C67_generate_partial (hp : e.Plain) {gen : Nat → Loc → M V Unit} {val : Nat → W} (hg : Generates e gen val) (hne : vs ≠ []) :
    Triple True (oseg e c i vs) (Own.generate o c i (i + vs.length) gen) (fun r => ⌜r = vs.length⌝ ∗ oseg e c i ((List.range vs.length).map val)) := by
  refine Triple.post (C67_generate_violated e hg hne) fun r => ?_
  refine sep_mono (ent_refl _) ?_
  refine ent_trans (sep_mono (ent_refl _) (orphans_plain e hp)) ?_
  rw [sep_emp]
  exact ent_refl _

/-! ## A type that owns memory

Boxes (Core/Elem.lean): an object is a pointer to a block of its own that holds the value.  All theorems apply to it: it is a proper element type with assignment, comparison and predicates, and there are
memories with ranges of boxes. -/

/-- boxes with assignment: the value is copied, the box is kept -/
def boxA (ty : Ty V) : AOps V where
  toOps := boxOps ty
  assign d s := do
    let p ← ldN d
    let q ← ldN s
    let v ← ldV (q, 1)
    store (p, 1) (.obj (some v))

def boxE (ty : Ty V) : AElem (boxA ty) V where
  toElemSpec := boxSpec ty
  assign_spec d s v w := by
    unfold cell boxSpec boxA
    dsimp only
    refine Triple.ex_left' fun x => ?_
    refine Triple.pre (P' := (∃ₛ y, pts s y ∗ ∃ₛ p, ⌜y = .num p⌝ ∗ blk p 1 ∗ pts (p, 1) (.obj (some w))) ∗ (∃ₛ p, ⌜x = .num p⌝ ∗ blk p 1 ∗ pts (p, 1) (.obj (some v))) ∗ pts d x) (by cancel) ?_
    refine Triple.ex_left' fun y => ?_
    refine Triple.pre (P' := (∃ₛ p, ⌜x = .num p⌝ ∗ blk p 1 ∗ pts (p, 1) (.obj (some v))) ∗ (∃ₛ p, ⌜y = .num p⌝ ∗ blk p 1 ∗ pts (p, 1) (.obj (some w))) ∗ pts d x ∗ pts s y) (by cancel) ?_
    xintro p hp
    subst hp
    refine Triple.pre (P' := (∃ₛ p, ⌜y = .num p⌝ ∗ blk p 1 ∗ pts (p, 1) (.obj (some w))) ∗ blk p 1 ∗ pts (p, 1) (.obj (some v)) ∗ pts d (.num p) ∗ pts s y) (by cancel) ?_
    xintro q hq
    subst hq
    steps
    apply Triple.ret
    xexists .num p
    xexists p
    xexists .num q
    xexists q
    cancel
  self_spec l w := by
    unfold cell boxSpec boxA
    dsimp only
    xintro x p hp
    subst hp
    steps
    apply Triple.ret
    xexists .num p
    xexists p
    cancel

/-- comparison of boxes -/
def boxCmp (comp : V → V → Bool) (l r : Loc) : M V Bool := do
  let p ← ldN l
  let q ← ldN r
  let a ← ldV (p, 1)
  let b ← ldV (q, 1)
  pure (comp a b)

theorem boxCmp_ok (ty : Ty V) (comp : V → V → Bool) : Compares (boxE ty) (boxCmp comp) comp where
  two l r a b := by
    unfold obj cell boxE boxSpec boxCmp
    dsimp only
    refine Triple.ex_left' fun x => ?_
    refine Triple.pre (P' := (∃ₛ y, pts r y ∗ ∃ₛ p, ⌜y = .num p⌝ ∗ blk p 1 ∗ pts (p, 1) (.obj (some b))) ∗ (∃ₛ p, ⌜x = .num p⌝ ∗ blk p 1 ∗ pts (p, 1) (.obj (some a))) ∗ pts l x) (by cancel) ?_
    refine Triple.ex_left' fun y => ?_
    refine Triple.pre (P' := (∃ₛ p, ⌜x = .num p⌝ ∗ blk p 1 ∗ pts (p, 1) (.obj (some a))) ∗ (∃ₛ p, ⌜y = .num p⌝ ∗ blk p 1 ∗ pts (p, 1) (.obj (some b))) ∗ pts l x ∗ pts r y) (by cancel) ?_
    xintro p hp
    subst hp
    refine Triple.pre (P' := (∃ₛ p, ⌜y = .num p⌝ ∗ blk p 1 ∗ pts (p, 1) (.obj (some b))) ∗ blk p 1 ∗ pts (p, 1) (.obj (some a)) ∗ pts l (.num p) ∗ pts r y) (by cancel) ?_
    xintro q hq
    subst hq
    steps
    apply Triple.ret
    refine ent_pure_right rfl ?_
    xexists .num p
    xexists p
    xexists .num q
    xexists q
    cancel
  one l a := by
    unfold obj cell boxE boxSpec boxCmp
    dsimp only
    xintro x p hp
    subst hp
    steps
    apply Triple.ret
    refine ent_pure_right rfl ?_
    xexists .num p
    xexists p
    cancel

/-- a predicate on boxes -/
def boxTest (pred : V → Bool) (l : Loc) : M V Bool := do
  let p ← ldN l
  let a ← ldV (p, 1)
  pure (pred a)

theorem boxTest_ok (ty : Ty V) (pred : V → Bool) : Tests (boxE ty) (boxTest pred) pred := by
  intro l a
  unfold obj cell boxE boxSpec boxTest
  dsimp only
  xintro x p hp
  subst hp
  steps
  apply Triple.ret
  refine ent_pure_right rfl ?_
  xexists .num p
  xexists p
  cancel

/-- a generator of boxes -/
def boxGen (val : Nat → V) (k : Nat) (l : Loc) : M V Unit := do
  let p ← mallocO 1
  if p = 0 then ub else do
  construct (p, 1) (val k)
  stN l p

theorem boxGen_ok (ty : Ty V) (val : Nat → V) : Generates (boxE ty) (boxGen val) val := by
  intro k l x
  unfold obj cell boxE boxSpec boxGen
  dsimp only
  apply mallocO1
  · intro h; exact absurd trivial h
  intro p hp
  rw [if_neg hp]
  steps
  apply Triple.ret
  xexists .num p
  xexists p
  cancel

theorem oseg_shift {e : AElem o W} (h : ∀ k, c' (k + 1) = c k) : ∀ (i : Nat) (ws : List W), oseg e c' (i + 1) ws = oseg e c i ws := by
  intro i ws
  induction ws generalizing i with
  | nil => rfl
  | cons w ws ih => rw [oseg, oseg, h, ih]

/-- Non-vacuity: for all values there is a memory with a range of boxes. -/
theorem exists_boxes (ty : Ty V) (ws : List V) : ∃ (m : Mem V) (c : Slots) (F : HProp V), (∀ t, m.orc t ≠ 0) ∧ (oseg (boxE ty) c 0 ws ∗ F) m.cells := by
  induction ws with
  | nil =>
    obtain ⟨m, ho, hm⟩ := exists_array ([] : List V) (fun _ => 1)
    refine ⟨m, fun _ => (0, 0), emp, fun t => by rw [ho]; simp, ?_⟩
    rw [oseg, sep_emp]; exact hm
  | cons w ws ih =>
    obtain ⟨m, c, F, ho, hm⟩ := ih
    have ht : Triple True (oseg (boxE ty) c 0 ws ∗ F) (do let t ← mallocO 1; boxGen (fun _ => w) 0 (t, 1); pure t) (fun t => obj (boxE ty) (t, 1) w ∗ oseg (boxE ty) c 0 ws ∗ F ∗ blk t 1) := by
      apply mallocO1
      · intro h; exact absurd trivial h
      intro t ht
      refine Triple.pre (P' := pts (t, 1) (.obj none) ∗ (oseg (boxE ty) c 0 ws ∗ F ∗ blk t 1)) (by cancel) ?_
      refine Triple.bind (Triple.frame (boxGen_ok ty (fun _ => w) 0 (t, 1) _)) fun _ => ?_
      apply Triple.ret
      exact ent_refl _
    obtain ⟨t, m', _, ho', hm'⟩ := ht.run (F := emp) (fun _ => ho) (by rw [sep_emp]; exact hm)
    refine ⟨m', fun k => match k with | 0 => (t, 1) | k + 1 => c k, F ∗ blk t 1, by rw [ho']; exact ho, ?_⟩
    rw [sep_emp] at hm'
    rw [oseg, oseg_shift (c := c) (fun k => rfl), sep_assoc]
    exact hm'

/-- Non-vacuity: two ranges of boxes, apart from each other, and boxes compared by the order of numbers -/
example (natTy : Ty Nat) : ∃ (m : Mem Nat) (c : Slots) (F : HProp Nat), (oseg (boxE natTy) c 0 [3, 1, 4] ∗ oseg (boxE natTy) c 3 [1, 5] ∗ F) m.cells ∧ Compares (boxE natTy) (boxCmp fun a b => decide (a < b)) (fun a b => decide (a < b)) ∧
    Tests (boxE natTy) (boxTest fun a => decide (a < 3)) (fun a => decide (a < 3)) ∧ IsHeap (fun a b => decide (a < b)) [4, 1, 3] := by
  obtain ⟨m, c, F, _, hm⟩ := exists_boxes natTy [3, 1, 4, 1, 5]
  refine ⟨m, c, F, ?_, boxCmp_ok _ _, boxTest_ok _ _, ?_⟩
  · refine (show _ ⊢ₛ _ from ?_) _ hm
    simp only [oseg]
    cancel
  · intro k a b h0 ha hb
    rcases k with _ | _ | _ | k <;> simp at ha hb ⊢ <;> omega

/-- what a box leaves over when it is not destroyed is an allocated block that nothing refers to -/
theorem box_orphan (ty : Ty V) (w : V) : orphans (boxE ty) [w] = ∃ₛ p, blk p 1 ∗ pts (p, 1) (.obj (some w)) := by
  refine ent_antisymm ?_ ?_
  · rw [orphans, orphans, sep_emp]
    refine ent_ex_left fun x => ?_
    refine ent_ex_left fun p => ent_pure_left fun _ => ?_
    exact ent_ex_right p (ent_refl _)
  · rw [orphans, orphans, sep_emp]
    refine ent_ex_left fun p => ?_
    apply ent_ex_right (.num p)
    apply ent_ex_right p
    exact ent_pure_right rfl (ent_refl _)

/-- `algo_push_heap` on boxes: afterwards there is a block more than before, that belongs to none of the boxes -/
theorem C67_push_heap_boxes_violated (ty : Ty V) {comp : V → V → Bool} {vs : List V} (hsw : StrictWeak comp) (v : V) (hne : vs ≠ []) (hh : IsHeap comp vs) :
    Triple True (oseg (boxE ty) c i (vs ++ [v])) (Own.pushHeap (boxA ty) c i (i + (vs ++ [v]).length) (boxCmp comp))
      (fun _ => (∃ₛ ws, ⌜ws.Perm (vs ++ [v]) ∧ IsHeap comp ws⌝ ∗ oseg (boxE ty) c i ws) ∗ ∃ₛ w, ∃ₛ p, blk p 1 ∗ pts (p, 1) (.obj (some w))) := by
  refine Triple.post (C67_push_heap_violated (boxE ty) hsw (boxCmp_ok ty comp) v hne hh) fun _ => ?_
  refine sep_mono (ent_refl _) (ent_ex_left fun w => ?_)
  rw [box_orphan]
  exact ent_ex_right w (ent_refl _)

/-- `algo_generate` on an empty range destroys a temporary object that was never constructed: for boxes this is undefined behaviour (violates C67) -/
theorem C67_generate_empty_violated (ty : Ty V) (gen : Nat → Loc → M V Unit) (s : Mem V) (ho : ∀ t, s.orc t ≠ 0) :
    Own.generate (boxA ty) c i i gen s = some (.error .ub) := by
  have hm : Triple (V := V) True emp (mallocO 1) (fun t => ⌜t ≠ 0⌝ ∗ blk t 1 ∗ pts (t, 1) (.obj none)) := by
    rw [← bind_pure (mallocO 1)]
    apply mallocO1
    · intro h; exact absurd trivial h
    intro t ht
    apply Triple.ret
    exact ent_pure_right ht (by cancel)
  generalize hX : (show HProp V from fun h => h = s.cells) = X
  have hXs : X s.cells := by rw [← hX]
  have hb : Bad (V := V) (emp ∗ X) (Own.generate (boxA ty) c i i gen) := by
    unfold Own.generate
    refine Bad.bind hm ?_
    intro t
    rw [sep_assoc]
    refine Bad.pure_left fun ht => ?_
    rw [if_neg ht, generateLoop]
    simp only [ne_eq, not_true_eq_false, ↓reduceIte, pure_bind]
    unfold dropO boxA boxOps
    simp only [bind_assoc]
    refine Bad.head ?_
    intro s' _ hs'
    have h1 : s'.cells (t, 1) = some (.obj none) := cell_of (R := blk t 1 ∗ X) hs' (by cancel)
    simp [ldN, load, Bind.bind, StateT.bind, ExceptT.bind, ExceptT.mk, Option.bind, ExceptT.bindCont, h1,
      get, getThe, MonadStateOf.get, StateT.get, set, StateT.set, Pure.pure, StateT.pure, ExceptT.pure, ub]
    rfl
  exact hb s ho (by rw [emp_sep]; exact hXs)

end CC.Own
