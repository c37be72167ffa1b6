/-- `algo_remove_copy_if` does not check: it overwrites the elements of a set or map (`es`, of which `us` are the values after the call).  Everything else is as for any other container (C63). -/
theorem C75_remove_copy_if_violated {C : List V → HProp V} {S : HProp V} {x2 y2 a h : Nat} {g : Tree.Cfg} {es : List (Elem V)} {vs : List V} (pred : V → Bool) (hc : View Z C r S) (hty : g.vt ≠ 0) (hl : vs.length = r.len)
    (hle : vs.length ≤ es.length) (hlow : ∀ q, q ≠ 0 → 2 ≤ low q) :
    Triple True (C vs ∗ isTree a h g es ∗ rawIt x ∗ rawIt y ∗ rawIt x2 ∗ rawIt y2) (whole r x y (whole (treeSrc a h g es) x2 y2 (IAlgo.removeCopyIf low x y x2 (.var (0, 0)) pred)))
      (fun _ => ∃ₛ fs, ⌜fs.map Elem.node = es.map Elem.node ∧ vals fs = (vs.filter fun v => !pred v) ++ (vals es).drop (vs.filter fun v => !pred v).length⌝ ∗
        C vs ∗ isTree a h g fs ∗ It r x 0 ∗ It r y r.len ∗ It (treeSrc a h g es) x2 0 ∗ It (treeSrc a h g es) y2 es.length) := by
  have hlen : (vals es).length = es.length := by simp [vals]
  have v2 := tree_view (Z := Z) (a := a) (h := h) (es := es) hty
  have hf : (vs.filter fun v => !pred v).length ≤ vs.length := List.length_filter_le ..
  rw [hc.eq vs hl, tree_parts]
  refine Triple.pre (P' := rawIt x ∗ rawIt y ∗ S ∗ (treeS a h g es ∗ rawIt x2 ∗ rawIt y2 ∗ seg r.ref 0 vs ∗ seg (boxAt es) 0 (vals es))) (by cancel) ?_
  refine whole_spec hc.ok ?_
  refine Triple.pre (P' := rawIt x2 ∗ rawIt y2 ∗ treeS a h g es ∗ (S ∗ It r x 0 ∗ It r y r.len ∗ seg r.ref 0 vs ∗ seg (boxAt es) 0 (vals es))) (by cancel) ?_
  refine whole_spec v2.ok ?_
  have o1 := hc.ok.frame (G := treeS a h g es)
  have o2 := v2.ok.frame (G := S)
  rw [sep_comm] at o2
  refine Triple.pre (P' := seg r.ref 0 vs ∗ seg (boxAt es) 0 (vals es) ∗ (It r x 0 ∗ It r y r.len ∗ (It (treeSrc a h g es) x2 0 ∗ It (treeSrc a h g es) y2 es.length)) ∗ (S ∗ treeS a h g es)) (by cancel) ?_
  have hs := spans_whole (x := x) (y := y) (G := It (treeSrc a h g es) x2 0 ∗ It (treeSrc a h g es) y2 es.length) o1 hl
  have hA : At (It r x 0 ∗ It r y r.len ∗ (It (treeSrc a h g es) x2 0 ∗ It (treeSrc a h g es) y2 es.length)) (treeSrc a h g es) x2 0 := ⟨_, show _ ⊢ₛ It (treeSrc a h g es) x2 0 ∗ _ by cancel⟩
  have key := C63_remove_copy_if (o := .var (0, 0)) (low := low) (us := vals es) pred hs seg_rng ⟨o2, by show 0 + _ ≤ es.length; omega, hA⟩ (by omega) hlow .null
  refine Triple.post key fun q => ?_
  refine ent_pure_left fun _ => ?_
  have hll : (over (vals es) (vs.filter fun v => !pred v)).length = es.length := by
    unfold over
    simp; omega
  refine ent_ex_right (setVals es (over (vals es) (vs.filter fun v => !pred v))) (ent_pure_right ⟨setVals_node hll, ?_⟩ ?_)
  · rw [vals_setVals hll]; rfl
  · rw [tree_seg hll]
    cancel

/-- In a concrete memory: copying the vector 3, 1, 2 with `algo_remove_copy_if` over the set 1, 2, 3 leaves a set whose elements are not in order; the same with `algo_copy` is rejected. -/
example : ∃ (m m' : Mem Nat) (a h v b x y x2 y2 : Addr) (es fs : List (Elem Nat)) (n : Nat × Nat) (F : HProp Nat), KSorted Tree.natEnv Tree.natCfg es ∧ (isTree a h Tree.natCfg es ∗ F) m.cells ∧
    whole (vecSrc v b 1 3) x y (whole (treeSrc a h Tree.natCfg es) x2 y2 (IAlgo.removeCopyIf (fun _ => 8) x y x2 (.var (0, 0)) fun _ => false)) m = some (.ok (n, m')) ∧
    (∃ F', (isTree a h Tree.natCfg fs ∗ F') m'.cells) ∧ ¬ KSorted Tree.natEnv Tree.natCfg fs ∧
    whole (vecSrc v b 1 3) x y (whole (treeSrc a h Tree.natCfg es) x2 y2 (IAlgo.copy (fun _ => 8) x y x2 (.var (0, 0)))) m = some (.error .abort) := by
  obtain ⟨m, a, h, v, b, x, y, x2, y2, es, F, ho, hv, hl, hs, hm⟩ := exists_set_vec
  have hvw := vec_view (Z := fun _ => 4) (nf := True) (t := Vec.intTy) (ty := 1) (v := v) (b := b) (cap := 3) (n := 3) (by simp) (by simp) (by simp)
  have ht := C75_remove_copy_if_violated (low := fun _ => 8) (a := a) (h := h) (g := Tree.natCfg) (es := es) (x := x) (y := y) (x2 := x2) (y2 := y2) (vs := [3, 1, 2]) (fun _ => false) hvw
    (by simp [Tree.natCfg]) rfl (by rw [hl]; decide) (by simp)
  obtain ⟨n, m', h1, _, hm'⟩ := ht.run (F := F) (s := m) (fun _ => ho) ((show _ ⊢ₛ _ by cancel) _ hm)
  rw [hex_sep] at hm'
  obtain ⟨fs, hm'⟩ := hm'
  rw [sep_assoc, hpure_sep_apply] at hm'
  refine ⟨m, m', a, h, v, b, x, y, x2, y2, es, fs, n, _, hs, hm, h1, ⟨_, (show _ ⊢ₛ isTree a h Tree.natCfg fs ∗ _ by cancel) _ hm'.2⟩, ?_, ?_⟩
  · intro hk
    have := vlt_sorted hk
    rw [hm'.1.2, hv] at this
    simp [Sorted, vlt, klt, Tree.natEnv] at this
  · have e : ∀ {α : Type} (r : Src Nat) (x y : Nat) (k : M Nat α), whole r x y k = whole r x y (pure ()) >>= fun _ => k := by
      intro α r x y k
      unfold whole
      simp only [bind_assoc, pure_bind]
    have v2 := tree_view (Z := fun _ => 4) (a := a) (h := h) (es := es) (g := Tree.natCfg) (by simp [Tree.natCfg])
    rw [hvw.eq [3, 1, 2] rfl, tree_parts] at hm
    have t1 : ∀ {r : Src Nat} {S : HProp Nat} {x y : Nat}, r.Ok True (fun _ => 4) S → Triple True (rawIt x ∗ rawIt y ∗ S) (whole r x y (pure ())) (fun _ => It r x 0 ∗ It r y r.len ∗ S) := by
      intro r S x y hr
      have := whole_spec (m := pure ()) (x := x) (y := y) (F := emp) (Q := fun _ : Unit => It r x 0 ∗ It r y r.len ∗ S ∗ emp) hr (Triple.ret (ent_refl _))
      simpa only [sep_emp] using this
    obtain ⟨_, m1, e1, o1, hm1⟩ := (t1 (x := x) (y := y) hvw.ok).run (F := _) (s := m) (fun _ => ho) ((show _ ⊢ₛ _ by cancel) _ hm)
    obtain ⟨_, m2, e2, _, hm2⟩ := (t1 (x := x2) (y := y2) v2.ok).run (F := _) (s := m1) (fun _ => by rw [o1]; exact ho) ((show _ ⊢ₛ _ by cancel) _ hm1)
    rw [e, bind_ok e1, e, bind_ok e2]
    exact C75_copy (P := _) ⟨treeSrc a h Tree.natCfg es, 0, ⟨_, show _ ⊢ₛ It _ x2 0 ∗ _ by cancel⟩, .inl rfl⟩ ⟨vecSrc v b 1 3, 0, ⟨_, show _ ⊢ₛ It _ x 0 ∗ _ by cancel⟩⟩
      ⟨vecSrc v b 1 3, 3, ⟨_, show _ ⊢ₛ It _ y (vecSrc v b 1 3).len ∗ _ by cancel⟩⟩ ⟨(0, 0), rfl, .inl rfl⟩ m2 hm2

end CC.IAlgo
