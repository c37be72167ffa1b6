import Verif.SList.History
import Verif.Core.Bad
import Verif.Core.Err

/-!
`c_slist_remove` called with a reference to an element of the list itself (c_forward_list.c:534-550). Used by `Props/CSList.lean`.
-/

namespace CC.SList
open CC.Tac
open CC.CList (Elem nodes vals firstN lastN firstN_nil firstN_cons lastN_nil lastN_cons lastN_append_cons firstN_append)

variable {V : Type} {nf : Prop} {E : Types V} {l a s : Addr} {ty : Nat}

/-- one round of the loop of `c_slist_remove`, c_forward_list.c:541-549 -/
def removeRound (E : Types V) (l : Addr) (value : Loc) (prev node : Addr) : M V (Addr × Addr) := do
  let ty ← ltype l
  let x ← valOf node
  let vx ← ldV x
  let v ← ldV value
  if (E ty).equal vx v then do
    let node ← popNodeAfter l prev
    pure (prev, node)
  else do
    let prev ← nxt prev
    let node ← nxt prev
    pure (prev, node)

theorem removeLoop_round {value : Loc} {prev node last : Addr} (h : node ≠ last) (h' : prev ≠ last) :
    removeLoop E l value prev node last = removeRound E l value prev node >>= fun n => removeLoop E l value n.1 n.2 last := by
  rw [removeLoop, if_pos ⟨h, h'⟩]
  simp only [removeRound, bind_assoc]
  refine bind_congr fun _ => bind_congr fun _ => bind_congr fun _ => bind_congr fun _ => ?_
  refine bind_congr fun _ => ?_
  split <;> simp only [bind_assoc, pure_bind]

theorem removeRound_spec {value : Loc} {v : V} {R : HProp V} {X Y : List (Elem V)} {d : Elem V}
    (hv : Reads (isSList l a s ty (X ++ d :: Y) ∗ R) value v) :
    Triple nf (isSList l a s ty (X ++ d :: Y) ∗ R) (removeRound E l value (lastN X a) d.node)
      (fun r => ⌜r = (lastN (X ++ [d].filter fun e => !(E ty).equal e.val v) a, firstN Y s)⌝ ∗
        isSList l a s ty (X ++ ([d].filter fun e => !(E ty).equal e.val v) ++ Y) ∗ R) := by
  unfold removeRound
  call ltype_spec
  intro r
  xsub
  call valOf_in
  intro r
  xsub
  call ldV_in
  intro r
  xsub
  refine ldV_reads (v := v) (hv.of_ent (R := emp) (by cancel)) ?_
  apply Triple.ite
  · intro hp
    call popAfter_spec
    intro r
    xsub
    apply Triple.ret
    rw [List.filter_cons_of_neg (by simp [hp]), List.filter_nil, List.append_nil]
    cancel
  · intro hp
    call nxt_spec
    intro r
    xsub
    rw [firstN_cons]
    call nxt_spec'
    intro r
    xsub
    apply Triple.ret
    rw [List.filter_cons_of_pos (by simp [hp]), List.filter_nil, List.append_assoc, lastN_append_cons, lastN_nil]
    simp only [List.singleton_append]
    cancel

theorem reads_own {X Y : List (Elem V)} {e : Elem V} {R : HProp V} :
    Reads (isSList l a s ty (X ++ e :: Y) ∗ R) (e.box, 1) e.val := by
  refine Reads.of_ent (R := hdr l a s ty ∗ path a (nodes (X ++ e :: Y) ++ [s]) ∗ elts X ∗ elts Y ∗ blk e.node 2 ∗ fld e.node 2 e.box ∗ blk e.box 1 ∗ R) Reads.pts ?_
  simp only [isSList, elts_append, elts, elt]
  cancel

/-- As long as the element has not been reached, the loop behaves as with any other value. -/
theorem removeLoop_prefix {X Z Y : List (Elem V)} {e : Elem V} {F : HProp V} {σ : Mem V} (ho : nf → ∀ t, σ.orc t ≠ 0)
    (hm : (isSList l a s ty (X ++ Z ++ e :: Y) ∗ F) σ.cells) :
    ∃ σ' : Mem V, removeLoop E l (e.box, 1) (lastN X a) (firstN Z e.node) s σ =
        removeLoop E l (e.box, 1) (lastN (X ++ Z.filter fun x => !(E ty).equal x.val e.val) a) e.node s σ' ∧ σ'.orc = σ.orc ∧
      (isSList l a s ty (X ++ (Z.filter fun x => !(E ty).equal x.val e.val) ++ e :: Y) ∗ F) σ'.cells := by
  induction Z generalizing X σ with
  | nil => exact ⟨σ, by rw [List.filter_nil, List.append_nil]; rfl, rfl, hm⟩
  | cons z Z ih =>
    have e1 : X ++ z :: Z ++ e :: Y = X ++ z :: (Z ++ e :: Y) := by simp
    have e2 : X ++ z :: Z ++ e :: Y = (X ++ z :: Z) ++ e :: Y := by simp
    have f := isSList_facts hm
    have hz : z.node ≠ s := f.ns z (by simp)
    rw [e1] at hm
    have f' := (isSList_facts hm).lastN_ne.1
    have hv : Reads (isSList l a s ty (X ++ z :: (Z ++ e :: Y)) ∗ emp) (e.box, 1) e.val := by rw [← e1, e2]; exact reads_own
    obtain ⟨r, σ1, h1, ho1, hm1⟩ := (removeRound_spec (nf := nf) (E := E) hv).run (F := F) ho (by rw [sep_emp]; exact hm)
    rw [sep_assoc, hpure_sep_apply] at hm1
    obtain ⟨rfl, hm1⟩ := hm1
    rw [sep_emp] at hm1
    have e3 : X ++ ([z].filter fun x => !(E ty).equal x.val e.val) ++ (Z ++ e :: Y) = (X ++ [z].filter fun x => !(E ty).equal x.val e.val) ++ Z ++ e :: Y := by simp
    rw [e3] at hm1
    obtain ⟨σ2, h2, ho2, hm2⟩ := ih (by rw [ho1]; exact ho) hm1
    have e4 : (z :: Z).filter (fun x => !(E ty).equal x.val e.val) = [z].filter (fun x => !(E ty).equal x.val e.val) ++ Z.filter (fun x => !(E ty).equal x.val e.val) := by
      rw [← List.filter_append]; rfl
    refine ⟨σ2, ?_, by rw [ho2, ho1], ?_⟩
    · rw [firstN_cons, removeLoop_round hz f', bind_ok h1, firstN_append, e4, ← List.append_assoc]
      exact h2
    · rw [e4, ← List.append_assoc]
      exact hm2

theorem elts_notIn {b : Addr} {xs : List (Elem V)} (h : ∀ x ∈ xs, x.node ≠ b ∧ x.box ≠ b) : NotIn (b, 1) (elts xs) := by
  induction xs with
  | nil => exact NotIn.emp
  | cons x xs ih =>
    obtain ⟨h1, h2⟩ := h x (by simp)
    refine NotIn.sep ?_ (ih fun y hy => h y (by simp [hy]))
    unfold elt
    refine NotIn.sep (NotIn.pts (by simp)) (NotIn.sep (NotIn.pts (by simp)) (NotIn.sep (NotIn.pts (by simp)) (NotIn.pts ?_)))
    intro hh; exact h2 (congrArg Prod.fst hh).symm

theorem path_notIn {b c : Addr} {ns : List Addr} (hc : c ≠ b) (h : ∀ x ∈ ns, x ≠ b) : NotIn (V := V) (b, 1) (path c ns) := by
  induction ns generalizing c with
  | nil => exact NotIn.emp
  | cons x ns ih =>
    refine NotIn.sep (NotIn.pts ?_) (ih (h x (by simp)) fun y hy => h y (by simp [hy]))
    intro hh; exact hc (congrArg Prod.fst hh).symm

theorem list_notIn {b : Addr} {xs : List (Elem V)} (hl : l ≠ b) (ha : a ≠ b) (hs : s ≠ b) (h : ∀ x ∈ xs, x.node ≠ b ∧ x.box ≠ b) :
    NotIn (V := V) (b, 1) (isSList l a s ty xs) := by
  refine NotIn.sep ?_ (NotIn.sep (path_notIn ha ?_) (elts_notIn h))
  · unfold hdr
    refine NotIn.sep (NotIn.pts (by simp)) (NotIn.sep (NotIn.pts ?_) (NotIn.sep (NotIn.pts (by simp)) (NotIn.sep (NotIn.pts (by simp))
      (NotIn.sep (NotIn.pts (by simp)) (NotIn.sep (NotIn.pts (by simp)) (NotIn.sep (NotIn.pts (by simp)) (NotIn.sep (NotIn.pts ?_) (NotIn.pts (by simp)))))))))
    · intro hh; exact hl (congrArg Prod.fst hh).symm
    · intro hh; exact hs (congrArg Prod.fst hh).symm
  · intro x hx
    rcases List.mem_append.1 hx with hx | hx
    · obtain ⟨y, hy, rfl⟩ := List.mem_map.1 hx
      exact (h y hy).1
    · simp only [List.mem_singleton] at hx
      exact hx ▸ hs

theorem elts_ne {b : Addr} {n : Nat} {xs : List (Elem V)} {F : HProp V} {h : Heap V} (hh : (elts xs ∗ blk b n ∗ F) h) :
    ∀ x ∈ xs, x.node ≠ b ∧ x.box ≠ b := by
  induction xs generalizing F with
  | nil => simp
  | cons x xs ih =>
    intro y hy
    rcases List.mem_cons.1 hy with rfl | hy
    · simp only [elts, elt] at hh
      have h1 : ((y.node, 0) : Loc) ≠ (b, 0) := loc_ne_of hh (by cancel)
      have h2 : ((y.box, 0) : Loc) ≠ (b, 0) := loc_ne_of hh (by cancel)
      exact ⟨fun h => h1 (by rw [h]), fun h => h2 (by rw [h])⟩
    · refine ih (F := elt x ∗ F) ((show _ ⊢ₛ _ from ?_) _ hh) y hy
      simp only [elts]
      cancel

/-- the box of an element is no part of the rest of the list -/
theorem own_notIn {X Y : List (Elem V)} {e : Elem V} {F : HProp V} {h : Heap V} (hh : (isSList l a s ty (X ++ e :: Y) ∗ F) h) :
    NotIn (V := V) (e.box, 1) (isSList l a s ty (X ++ Y)) := by
  have hh' := hh
  simp only [isSList, hdr, elts_append, elts, elt] at hh'
  have h1 : ((l, 0) : Loc) ≠ (e.box, 0) := loc_ne_of hh' (by cancel)
  have h2 : ((s, 0) : Loc) ≠ (e.box, 0) := loc_ne_of hh' (by cancel)
  have h3 : ((a, 0) : Loc) ≠ (e.box, 0) := loc_ne_of hh' (by cancel)
  refine list_notIn (fun h => h1 (by rw [h])) (fun h => h3 (by rw [h])) (fun h => h2 (by rw [h])) ?_
  refine elts_ne (F := hdr l a s ty ∗ path a (nodes (X ++ e :: Y) ++ [s]) ∗ blk e.node 2 ∗ fld e.node 2 e.box ∗ pts (e.box, 1) (.obj (some e.val)) ∗ F) (n := 1) (h := h)
    ((show _ ⊢ₛ _ from ?_) _ hh)
  simp only [isSList, elts_append, elts, elt]
  cancel

/-- After the element itself has been erased the loop reads it again: undefined behaviour, unless the element was the last one. -/
theorem removeLoop_own_bad {X Z Y : List (Elem V)} {e y : Elem V} {F : HProp V} {σ : Mem V}
    (hrefl : (E ty).equal e.val e.val = true) (hm : (isSList l a s ty (X ++ Z ++ e :: y :: Y) ∗ F) σ.cells) :
    removeLoop E l (e.box, 1) (lastN X a) (firstN Z e.node) s σ = some (.error .ub) := by
  obtain ⟨σ1, h1, _, hm1⟩ := removeLoop_prefix (nf := False) (E := E) (fun h => h.elim) hm
  rw [h1]
  generalize hX : X ++ (Z.filter fun x => !(E ty).equal x.val e.val) = X1 at hm1 ⊢
  clear h1 hm hX
  have f := isSList_facts hm1
  have hn := own_notIn hm1
  have ha : (isSList l a s ty (X1 ++ e :: y :: Y) ∗ avoid (e.box, 1) F) σ1.cells := by
    have e0 : isSList l a s ty (X1 ++ e :: y :: Y) = (pts (e.box, 1) (.obj (some e.val)) ∗
        (hdr l a s ty ∗ path a (nodes (X1 ++ e :: y :: Y) ++ [s]) ∗ elts X1 ∗ elts (y :: Y) ∗ blk e.node 2 ∗ fld e.node 2 e.box ∗ blk e.box 1)) := by
      simp only [isSList, elts_append, elts, elt]; ac_rfl
    rw [e0] at hm1 ⊢
    exact avoid_intro hm1
  rw [removeLoop_round (f.ns e (by simp)) f.lastN_ne.1]
  obtain ⟨r, σ2, h2, _, hm2⟩ := (removeRound_spec (nf := False) (E := E) (reads_own (R := emp))).run (F := avoid (e.box, 1) F) (fun h => h.elim)
    (by rw [sep_emp]; exact ha)
  rw [sep_assoc, hpure_sep_apply] at hm2
  obtain ⟨rfl, hm2⟩ := hm2
  rw [sep_emp, List.filter_cons_of_neg (by simp [hrefl]), List.filter_nil, List.append_nil] at hm2
  rw [bind_ok h2, List.filter_cons_of_neg (by simp [hrefl]), List.filter_nil, List.append_nil]
  dsimp only
  rw [firstN_cons, removeLoop_round (f.ns y (by simp)) f.lastN_ne.1]
  have hgone : σ2.cells (e.box, 1) = none := by
    refine (NotIn.sep hn (Q := avoid (e.box, 1) F) (fun h hh => hh.2)) _ hm2
  have hm3 := hm2
  simp only [isSList, hdr, elts_append, elts, elt] at hm3
  have d2 : σ2.cells (l, 3) = some (.num ty) := cell_of hm3 (by cancel)
  have d4 : σ2.cells (y.node, 2) = some (.num y.box) := cell_of hm3 (by cancel)
  have d5 : σ2.cells (y.box, 1) = some (.obj (some y.val)) := cell_of hm3 (by cancel)
  simp only [removeRound, ltype, valOf, bind_assoc, pure_bind]
  rw [run_ldN d2, run_ldN (s := σ2.bump) d4, run_ldV (s := σ2.bump.bump) d5, ldV_unalloc (s := σ2.bump.bump.bump) hgone]

/-- the element is the last one: nothing is read after it has been erased -/
theorem removeLoop_own_last {X Z : List (Elem V)} {e : Elem V} :
    Triple nf (isSList l a s ty (X ++ Z ++ [e])) (removeLoop E l (e.box, 1) (lastN X a) (firstN Z e.node) s)
      (fun _ => isSList l a s ty (X ++ ((Z ++ [e]).filter fun x => !(E ty).equal x.val e.val))) := by
  intro σ F ho hm
  obtain ⟨σ1, h1, ho1, hm1⟩ := removeLoop_prefix (E := E) ho hm
  have f := isSList_facts hm1
  rw [h1, removeLoop_round (f.ns e (by simp)) f.lastN_ne.1]
  obtain ⟨r, σ2, h2, ho2, hm2⟩ := (removeRound_spec (nf := nf) (E := E) (reads_own (R := emp))).run (F := F) (by rw [ho1]; exact ho)
    (by rw [sep_emp]; exact hm1)
  rw [sep_assoc, hpure_sep_apply] at hm2
  obtain ⟨rfl, hm2⟩ := hm2
  rw [sep_emp] at hm2
  rw [bind_ok h2]
  dsimp only
  rw [firstN_nil, removeLoop, if_neg (by simp)]
  refine ⟨(), σ2, rfl, by rw [ho2, ho1], ?_⟩
  rw [List.filter_append, ← List.append_assoc]
  simpa only [List.append_nil] using hm2

/-- the element does not equal itself: it stays in the list, and the reference stays good -/
theorem removeLoop_own_kept {X Z : List (Elem V)} {e : Elem V} (hirr : (E ty).equal e.val e.val = false)
    (he : e ∈ X ++ Z) : Triple nf (isSList l a s ty (X ++ Z)) (removeLoop E l (e.box, 1) (lastN X a) (firstN Z s) s)
      (fun _ => isSList l a s ty (X ++ (Z.filter fun x => !(E ty).equal x.val e.val))) := by
  induction Z generalizing X with
  | nil =>
    rw [removeLoop, if_neg (by simp)]
    apply Triple.ret
    exact ent_refl _
  | cons z Z ih =>
    apply list_facts0; intro f
    rw [firstN_cons, removeLoop_round (f.ns z (by simp)) f.lastN_ne.1]
    obtain ⟨A, B, hAB⟩ := List.append_of_mem he
    have hv : Reads (isSList l a s ty (X ++ z :: Z) ∗ emp) (e.box, 1) e.val := by rw [hAB]; exact reads_own
    call (removeRound_spec hv)
    intro r
    xsub
    have hmem : e ∈ (X ++ [z].filter fun x => !(E ty).equal x.val e.val) ++ Z := by
      rcases List.mem_append.1 he with h | h
      · simp [h]
      · rcases List.mem_cons.1 h with rfl | h
        · simp [hirr]
        · simp [h]
    refine (ih hmem).post fun _ => ?_
    rw [List.append_assoc, ← List.filter_append]
    exact ent_refl _

theorem remove_own {xs : List (Elem V)} {value : Loc} {Q : Unit → HProp V} (hne : xs ≠ []) (hv0 : value.1 ≠ 0)
    (h : Triple nf (isSList l a s ty xs) (removeLoop E l value a (firstN xs s) s) Q) :
    Triple nf (isSList l a s ty xs) (remove E l value) Q := by
  unfold remove
  call empty_spec
  intro r
  xsub
  cases xs with
  | nil => exact absurd rfl hne
  | cons e xs =>
    rw [if_neg (by simp [hv0])]
    call beforeBegin_spec
    intro r
    xsub
    have hnx := nxt_spec (nf := nf) (l := l) (a := a) (s := s) (ty := ty) (X := []) (Y := e :: xs)
    simp only [List.nil_append, lastN_nil] at hnx
    call hnx
    intro r
    xsub
    call end_spec
    intro r
    xsub
    exact h

theorem remove_own_last {X : List (Elem V)} {e : Elem V} :
    Triple nf (isSList l a s ty (X ++ [e])) (remove E l (e.box, 1))
      (fun _ => isSList l a s ty ((X ++ [e]).filter fun x => !(E ty).equal x.val e.val)) := by
  refine Triple.fact (p := e.box ≠ 0) (fun h hh => elt_box_ne (List.mem_append_right _ List.mem_cons_self) (R := emp) (by rw [sep_emp]; exact hh)) fun hb => ?_
  refine remove_own (by simp) hb ?_
  have := removeLoop_own_last (nf := nf) (E := E) (l := l) (a := a) (s := s) (ty := ty) (X := []) (Z := X) (e := e)
  rw [firstN_append]
  exact this

theorem remove_own_kept {X Y : List (Elem V)} {e : Elem V} (hirr : (E ty).equal e.val e.val = false) :
    Triple nf (isSList l a s ty (X ++ e :: Y)) (remove E l (e.box, 1))
      (fun _ => isSList l a s ty ((X ++ e :: Y).filter fun x => !(E ty).equal x.val e.val)) := by
  refine Triple.fact (p := e.box ≠ 0) (fun h hh => elt_box_ne (List.mem_append_right _ List.mem_cons_self) (R := emp) (by rw [sep_emp]; exact hh)) fun hb => ?_
  refine remove_own (by simp) hb ?_
  exact removeLoop_own_kept (X := []) hirr (by simp)

theorem remove_own_bad {X Y : List (Elem V)} {e y : Elem V} (hrefl : (E ty).equal e.val e.val = true) {F : HProp V} :
    Bad (isSList l a s ty (X ++ e :: y :: Y) ∗ F) (remove E l (e.box, 1)) := by
  refine Bad.fact (p := e.box ≠ 0) (fun h hh => elt_box_ne (by simp) hh) fun hb => ?_
  unfold remove
  refine Bad.bind empty_spec fun r => ?_
  rw [sep_assoc]
  refine Bad.pure_left ?_
  rintro rfl
  rw [if_neg (by simp [hb])]
  refine Bad.bind beforeBegin_spec fun r => ?_
  rw [sep_assoc]
  refine Bad.pure_left ?_
  rintro rfl
  have hnx := nxt_spec (nf := True) (l := l) (a := r) (s := s) (ty := ty) (X := []) (Y := X ++ e :: y :: Y)
  simp only [List.nil_append, lastN_nil] at hnx
  refine Bad.bind hnx fun r => ?_
  rw [sep_assoc]
  refine Bad.pure_left ?_
  rintro rfl
  refine Bad.bind end_spec fun r => ?_
  rw [sep_assoc]
  refine Bad.pure_left ?_
  rintro rfl
  rw [firstN_append]
  intro σ ho hm
  exact removeLoop_own_bad (X := []) hrefl hm

end CC.SList
