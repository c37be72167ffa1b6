import Verif.Props.CTree
/-!
# C33: lookups, insertions and erasures take O(log n) steps

`TripleC nf P m Q k` (Verif/Core/Cost.lean) is a `Triple` whose run, moreover, makes at most `k` memory accesses: `Mem.clk` counts every load, every store and every
call of malloc and free (Verif/Core/Mem.lean).  Each comparison of two elements loads at least one of them, so the number of comparisons is bounded, too.
`n` is the number of elements before the call.
-/
namespace CC.Tree
open CC CC.Tac T
open CC.CList (Elem nodes vals firstN lastN)
variable {V : Type} {nf : Prop} {E : Env V} {a h : Nat} {g : Cfg} {es : List (Elem V)} {F R : HProp V} {ρ : Loc → V}

theorem C33_find_steps {key : Loc} {v : V} (hw : StrictWeak (klt E g)) (hs : KSorted E g es) (hk0 : key.1 ≠ 0) (hv : Reads (isTree a h g es ∗ F) key v) :
    TripleC nf (isTree a h g es ∗ F) (find E a key)
      (fun r => ⌜(∃ e ∈ es, keq E g v e = true ∧ r = e.node) ∨ ((∀ e ∈ es, keq E g v e = false) ∧ r = h)⌝ ∗ isTree a h g es ∗ F)
      (22 * Nat.log2 (es.length + 1) + 16) := by
  refine TripleC.of (Q' := fun _ => isTree a h g es ∗ F) (C34_find hw hs hk0 hv) ?_ ((findF_cost E (2 * Nat.log2 (es.length + 1) + 1) a key).mono (by omega)) (findF_le E _ a key)
  refine with_treeN (Nat.le_refl _) fun t h1 h2 h3 hH => ?_
  rw [← bind_pure (findF E _ a key)]
  refine findF_cps hH hw (h1.symm ▸ hs) h3 hk0 (reads_shape h1 h2 h3 hv) (fun e he hk => ?_) fun hn => ?_
  · exact Triple.ret (sep_mono (shape_tree h1 h2 h3) (ent_refl F))
  · exact Triple.ret (sep_mono (shape_tree h1 h2 h3) (ent_refl F))

theorem C33_lower_bound_steps {key : Loc} {v : V} (hw : StrictWeak (klt E g)) (hs : KSorted E g es) (hk0 : key.1 ≠ 0) (hv : Reads (isTree a h g es ∗ F) key v) :
    TripleC nf (isTree a h g es ∗ F) (lowerBound E a key)
      (fun r => ⌜∃ X Y, es = X ++ Y ∧ r = firstN Y h ∧ (∀ x ∈ X, klt E g (ek E g x) v = true) ∧ (∀ y ∈ Y, klt E g (ek E g y) v = false)⌝ ∗ isTree a h g es ∗ F)
      (12 * Nat.log2 (es.length + 1) + 10) := by
  refine TripleC.of (Q' := fun _ => isTree a h g es ∗ F) (C34_lower_bound hw hs hk0 hv) ?_ ((lowerBoundF_cost E (2 * Nat.log2 (es.length + 1) + 1) a key).mono (by omega)) (lowerBoundF_le E _ a key)
  refine with_treeN (Nat.le_refl _) fun t h1 h2 h3 hH => ?_
  rw [← bind_pure (lowerBoundF E _ a key)]
  refine lowerBoundF_cps hH hw (h1.symm ▸ hs) h3 hk0 (reads_shape h1 h2 h3 hv) ?_
  exact Triple.ret (sep_mono (shape_tree h1 h2 h3) (ent_refl F))

theorem C33_upper_bound_steps {key : Loc} {v : V} (hw : StrictWeak (klt E g)) (hs : KSorted E g es) (hk0 : key.1 ≠ 0) (hv : Reads (isTree a h g es ∗ F) key v) :
    TripleC nf (isTree a h g es ∗ F) (upperBound E a key)
      (fun r => ⌜∃ X Y, es = X ++ Y ∧ r = firstN Y h ∧ (∀ x ∈ X, klt E g v (ek E g x) = false) ∧ (∀ y ∈ Y, klt E g v (ek E g y) = true)⌝ ∗ isTree a h g es ∗ F)
      (12 * Nat.log2 (es.length + 1) + 10) := by
  refine TripleC.of (Q' := fun _ => isTree a h g es ∗ F) (C34_upper_bound hw hs hk0 hv) ?_ ((upperBoundF_cost E (2 * Nat.log2 (es.length + 1) + 1) a key).mono (by omega)) (upperBoundF_le E _ a key)
  refine with_treeN (Nat.le_refl _) fun t h1 h2 h3 hH => ?_
  rw [← bind_pure (upperBoundF E _ a key)]
  refine upperBoundF_cps hH hw (h1.symm ▸ hs) h3 hk0 (reads_shape h1 h2 h3 hv) ?_
  exact Triple.ret (sep_mono (shape_tree h1 h2 h3) (ent_refl F))

theorem C33_equal_range_steps {key lower upper : Loc} {v : V} {l u x y : Nat} (hw : StrictWeak (klt E g)) (hs : KSorted E g es) (hk0 : key.1 ≠ 0)
    (hv : Reads (isTree a h g es ∗ F) key v) (hl : l ≠ 0) (hu : u ≠ 0) :
    TripleC nf (isTree a h g es ∗ pts lower (.num l) ∗ pts upper (.num u) ∗ fld l 2 x ∗ fld u 2 y ∗ F) (equalRange E a key lower upper)
      (fun _ => ∃ₛ X W Y, ⌜es = X ++ W ++ Y ∧ (∀ x ∈ X, klt E g (ek E g x) v = true) ∧ (∀ w ∈ W, keq E g v w = true) ∧ (∀ y ∈ Y, klt E g v (ek E g y) = true)⌝ ∗
        isTree a h g es ∗ pts lower (.num l) ∗ pts upper (.num u) ∗ fld l 2 (firstN (W ++ Y) h) ∗ fld u 2 (firstN Y h) ∗ F)
      (24 * Nat.log2 (es.length + 1) + 32) :=
  TripleC.of (C34_equal_range hw hs hk0 hv hl hu) (equalRangeF_spec (Nat.le_refl _) hw hs hk0 hv hl hu)
    ((equalRangeF_cost E (2 * Nat.log2 (es.length + 1) + 1) a key lower upper).mono (by omega)) (equalRangeF_le E _ a key lower upper)

theorem C33_insert_unique_steps {value : Loc} {v : V} (hw : StrictWeak (klt E g)) (hs : KSorted E g es) (hv0 : value.1 ≠ 0) (hv : Reads (isTree a h g es ∗ F) value v) :
    TripleC True (isTree a h g es ∗ F) (insertUniqueValue E a value) (fun r => ∃ₛ es', ⌜UniqueIns E g v es r es'⌝ ∗ isTree a h g es' ∗ F)
      (136 * Nat.log2 (es.length + 1) + 116) :=
  TripleC.intro (insertUniqueValueF_spec (Nat.le_refl _) hw hs hv0 hv) ((insertUniqueValueF_cost E (2 * Nat.log2 (es.length + 1) + 1) a value).mono (by omega)) (insertUniqueValueF_le E _ a value)

theorem C33_insert_equal_steps {value : Loc} {v : V} (hw : StrictWeak (klt E g)) (hs : KSorted E g es) (hv0 : value.1 ≠ 0) (hv : Reads (isTree a h g es ∗ F) value v) :
    TripleC True (isTree a h g es ∗ F) (insertEqualValue E a value) (fun r => ∃ₛ e, ⌜r = e.node ∧ e.val = v⌝ ∗ isTree a h g (insAfter E g v es e) ∗ F)
      (132 * Nat.log2 (es.length + 1) + 100) :=
  TripleC.intro (insertEqualValueF_spec (Nat.le_refl _) hw hs hv0 hv) ((insertEqualValueF_cost E (2 * Nat.log2 (es.length + 1) + 1) a value).mono (by omega)) (insertEqualValueF_le E _ a value)

/-- with any hint, good or bad -/
theorem C33_insert_unique_hint_steps {X Y : List (Elem V)} {value : Loc} {v : V} (hw : StrictWeak (klt E g)) (hs : KSorted E g (X ++ Y)) (hv0 : value.1 ≠ 0)
    (hv : Reads (isTree a h g (X ++ Y) ∗ F) value v) :
    TripleC True (isTree a h g (X ++ Y) ∗ F) (insertUnique E a (firstN Y h) value) (fun r => ∃ₛ es', ⌜UniqueIns E g v (X ++ Y) r es'⌝ ∗ isTree a h g es' ∗ F)
      (140 * Nat.log2 ((X ++ Y).length + 1) + 138) :=
  TripleC.intro (insertUniqueF_spec (Nat.le_refl _) hw hs hv0 hv) ((insertUniqueF_cost E (2 * Nat.log2 ((X ++ Y).length + 1) + 1) a _ value).mono (by omega)) (insertUniqueF_le E _ a _ value)

theorem C33_insert_equal_hint_steps {X Y : List (Elem V)} {value : Loc} {v : V} (hw : StrictWeak (klt E g)) (hs : KSorted E g (X ++ Y)) (hv0 : value.1 ≠ 0)
    (hv : Reads (isTree a h g (X ++ Y) ∗ F) value v) :
    TripleC True (isTree a h g (X ++ Y) ∗ F) (insertEqual E a (firstN Y h) value) (fun r => ∃ₛ e, ⌜r = e.node ∧ e.val = v⌝ ∗ isTree a h g (hintIns E g v X Y e) ∗ F)
      (136 * Nat.log2 ((X ++ Y).length + 1) + 122) :=
  TripleC.intro (insertEqualF_spec (Nat.le_refl _) hw hs hv0 hv) ((insertEqualF_cost E (2 * Nat.log2 ((X ++ Y).length + 1) + 1) a _ value).mono (by omega)) (insertEqualF_le E _ a _ value)

theorem C33_erase_steps {X Y : List (Elem V)} {e : Elem V} :
    TripleC nf (isTree a h g (X ++ e :: Y) ∗ F) (erase a e.node) (fun r => ⌜r = firstN Y h⌝ ∗ isTree a h g (X ++ Y) ∗ F)
      (182 * Nat.log2 ((X ++ e :: Y).length + 1) + 137) :=
  TripleC.intro (eraseF_spec (Nat.le_refl _)) ((eraseF_cost (2 * Nat.log2 ((X ++ e :: Y).length + 1) + 1) a _).mono (by omega)) (eraseF_le _ a _)

theorem C33_increment_steps {X Y : List (Elem V)} {e : Elem V} :
    TripleC nf (isTree a h g (X ++ e :: Y) ∗ F) (iterIncrement e.node) (fun r => ⌜r = firstN Y h⌝ ∗ isTree a h g (X ++ e :: Y) ∗ F)
      (4 * Nat.log2 ((X ++ e :: Y).length + 1) + 5) := by
  refine TripleC.of (Q' := fun _ => isTree a h g (X ++ e :: Y) ∗ F) C36_increment ?_ ((iterIncrementF_cost (2 * Nat.log2 ((X ++ e :: Y).length + 1) + 1) e.node).mono (by omega)) (iterIncrementF_le _ _)
  refine with_treeN (Nat.le_refl _) fun t h1 h2 h3 hH => ?_
  rw [← bind_pure (iterIncrementF _ _)]
  refine incrementF_cps hH h1 ?_
  exact Triple.ret (sep_mono (shape_tree h1 h2 h3) (ent_refl F))

theorem C33_decrement_steps {X Y : List (Elem V)} {e : Elem V} :
    TripleC nf (isTree a h g (X ++ e :: Y) ∗ F) (iterDecrement (firstN Y h)) (fun r => ⌜r = e.node⌝ ∗ isTree a h g (X ++ e :: Y) ∗ F)
      (4 * Nat.log2 ((X ++ e :: Y).length + 1) + 7) := by
  refine TripleC.of (Q' := fun _ => isTree a h g (X ++ e :: Y) ∗ F) C36_decrement ?_ ((iterDecrementF_cost (2 * Nat.log2 ((X ++ e :: Y).length + 1) + 1) (firstN Y h)).mono (by omega)) (iterDecrementF_le _ _)
  refine with_treeN (Nat.le_refl _) fun t h1 h2 h3 hH => ?_
  rw [← bind_pure (iterDecrementF _ _)]
  have hl : t.toList = (X ++ [e]) ++ Y := by rw [h1]; simp
  refine decrementF_pos hH hl h2 (by simp) ?_
  exact Triple.ret (sep_mono (shape_tree h1 h2 h3) (ent_refl F))

/-- Non-vacuity: in a memory reached by the API, with elements `vs` of an ordered type in the tree, looking the first array element up makes at most
`22 * log2 (n + 1) + 16` accesses. -/
example (E : Env Nat) (g : Cfg) (hg : g.kt ≠ 0 ∧ g.vt ≠ 0 ∧ g.kov ≠ 0 ∧ g.cmp ≠ 0) (hw : StrictWeak (klt E g)) (vs : List Nat) (v : Nat) :
    ∃ (m m' : Mem Nat) (a r : Addr), find E a (1, 1) m = some (.ok (r, m')) ∧ m'.clk ≤ m.clk + (22 * Nat.log2 ((v :: vs).length + 1) + 16) := by
  obtain ⟨m, a, h, es, ho, hp, hs, hm⟩ := exists_tree E g hg hw (v :: vs)
  have hv : Reads (isTree a h g es ∗ arr 1 1 ((v :: vs).map fun v => .obj (some v))) (1, 1) v := by
    intro m hm
    exact cell_of (R := isTree a h g es ∗ arr 1 (1 + 1) (vs.map fun v => .obj (some v))) hm (by rw [List.map_cons, arr]; cancel)
  obtain ⟨r, m', e, _, hc, _⟩ := C33_find_steps (nf := True) hw hs (by simp) hv m emp (fun _ => ho) (by rw [sep_emp]; exact hm)
  refine ⟨m, m', a, r, e, ?_⟩
  have : es.length = (v :: vs).length := by rw [← hp.length_eq]; simp [vals]
  rw [← this]
  exact hc

end CC.Tree
