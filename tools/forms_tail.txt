/-! ## Whole containers -/

/-- `x = begin(c); y = end(c); c_algo_sort(x, y)` for a vector or deque of elements of type `r.ty` -/
theorem C79_sort_whole_partial (E : Types V) {C : List V → HProp V} {x y : Nat} (hsw : StrictWeak (E r.ty).less) (hn : vs.length ≤ 512) (hc : View Z C r S) (hx : Rand S r) (hl : vs.length = r.len)
    (hlow : ∀ q, q ≠ 0 → 3 ≤ low q) :
    Triple True (C vs ∗ rawIt x ∗ rawIt y) (whole r x y (Form.sort E Z low x y)) (fun _ => ∃ₛ ws, ⌜ws.Perm vs ∧ Sorted (E r.ty).less ws⌝ ∗ C ws ∗ It r x 0 ∗ It r y r.len) := by
  rw [hc.eq vs hl]
  refine Triple.pre (P' := rawIt x ∗ rawIt y ∗ S ∗ seg r.ref 0 vs) (by cancel) ?_
  refine whole_spec hc.ok ?_
  refine Triple.pre (P' := seg r.ref 0 vs ∗ (It r x 0 ∗ It r y r.len ∗ emp) ∗ S) (by cancel) ?_
  refine Triple.post (C79_sort_partial E hsw hn (spans_whole hc.ok hl) hx hlow) fun _ => ?_
  refine ent_ex_left fun ws => ent_pure_left fun h => ?_
  rintro s hs
  refine ⟨ws, hpure_sep_apply.2 ⟨h, ?_⟩⟩
  rw [hc.eq ws (by rw [h.1.length_eq, hl])]
  exact (show _ ⊢ₛ _ by cancel) _ hs

/-- the vector 3, 1, 2, sorted by the order of its element type, in a concrete memory -/
example : ∃ (m m' : Mem Nat) (v b x y : Addr), whole (vecSrc v b 1 3) x y (Form.sort (fun _ => Vec.intTy) (fun _ => 4) (fun _ => 8) x y) m = some (.ok ((), m')) ∧
    ∃ F, (Vec.isVec (T := fun _ => plainOps Vec.intTy) (ty := 1) (plainSpec (nf := True) Vec.intTy) v b 3 [3, 1, 2] ∗ F) m.cells ∧
      ∃ F', (Vec.isVec (T := fun _ => plainOps Vec.intTy) (ty := 1) (plainSpec (nf := True) Vec.intTy) v b 3 [1, 2, 3] ∗ F') m'.cells := by
  obtain ⟨m, v, b, ho, hm⟩ := Vec.exists_vec (V := Nat) Vec.intTy 1 (by simp) [3, 1, 2] (by simp)
  rw [show [3, 1, 2].length = 3 from rfl] at hm
  obtain ⟨m, x, ho, hm⟩ := exists_struct ho hm
  obtain ⟨m, y, ho, hm⟩ := exists_struct ho hm
  have ht := C79_sort_whole_partial (fun _ => Vec.intTy) (Z := fun _ => 4) (low := fun _ => 8) (x := x) (y := y) (vs := [3, 1, 2]) (by exact lt_strictWeak) (by simp)
    (vec_view (nf := True) (t := Vec.intTy) (ty := 1) (v := v) (b := b) (cap := 3) (n := 3) (by simp) (by simp) (by simp)) vec_rand rfl (by simp)
  obtain ⟨_, m', h, _, hm'⟩ := ht.run (F := live (plainSpec (nf := True) Vec.intTy) 1 1 [3, 1, 2]) (s := m) (fun _ => ho) ((show _ ⊢ₛ _ by cancel) _ hm)
  refine ⟨m, m', v, b, x, y, h, _, (show _ ⊢ₛ _ by cancel) _ hm, ?_⟩
  rw [hex_sep] at hm'
  obtain ⟨ws, hm'⟩ := hm'
  rw [sep_assoc, hpure_sep_apply] at hm'
  obtain ⟨⟨hp, hsd⟩, hm'⟩ := hm'
  have : ws = [1, 2, 3] := by
    have hp2 : ws.Perm [1, 2, 3] := hp.trans (by decide)
    refine hp2.eq_of_pairwise (le := fun a b => a ≤ b) (fun a b _ _ h1 h2 => Nat.le_antisymm h1 h2) ?_ (by decide)
    unfold Sorted at hsd
    exact hsd.imp (by simp [Vec.intTy])
  subst this
  exact ⟨_, (show _ ⊢ₛ _ by cancel) _ hm'⟩

end CC.IAlgo
