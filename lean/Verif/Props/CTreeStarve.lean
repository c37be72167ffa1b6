import Verif.Tree.Starve
import Verif.Tree.SetMap
import Verif.Props.CTree
/-!
# C77: sets and multisets when memory runs out

The allocator is the oracle `orc` of a memory: the `t`-th request fails if `orc t = 0`.

What holds: with any allocator, a history of operations either does exactly what it does with enough memory, or ends with a failed assertion, and the latter only if
a request was due to fail; there is no undefined behaviour, no endless loop and no container in a state in between.  Inserting a key that is already there
needs no memory.

What does not hold: an insertion that cannot allocate does not report it; `__insert` returns NULL and `__create_iterator` fails the assertion `node`.
(The elements are plain values here as in the whole tree model; for elements that are pairs see C54.)
-/
namespace CC.Tree
open CC CC.Tac
open CC.CList (Elem nodes vals firstN lastN)
variable {V : Type} {nf : Prop} {E : Env V} {a h : Nat} {g : Cfg} {es X Y : List (Elem V)} {F R : HProp V} {ρ : Loc → V} {value : Loc} {v : V}

/-- Any allocator, any history. -/
theorem C77_history_partial {ops : List Op} (hw : StrictWeak (klt E g)) (hs : KSorted E g es) (hv : ValidOps E g R ρ ops es) (m : Mem V)
    (hm : (isTree a h g es ∗ R) m.cells) :
    (runOps E a ops m = some (.error .abort) ∧ ∃ t, m.orc t = 0) ∨
    ∃ m' es', runOps E a ops m = some (.ok ((), m')) ∧ Run E g ρ ops es es' ∧ KSorted E g es' ∧ (isTree a h g es' ∗ R) m'.cells := by
  rcases runOps_safe hw hs hv m hm with h1 | ⟨_, m', h1, _, es', h2⟩
  · exact Or.inl h1
  · obtain ⟨h3, h4⟩ := hpure_sep_apply.1 h2
    exact Or.inr ⟨m', es', h1, h3.1, h3.2, h4⟩

/-- A key that is there is found without any memory; the position of the equivalent element is returned. -/
theorem C77_present {x : Elem V} (hw : StrictWeak (klt E g)) (hs : KSorted E g es) (hv0 : value.1 ≠ 0) (hv : Reads (isTree a h g es ∗ F) value v)
    (hx : x ∈ es) (hq : keq E g (E.kov g.kov v) x = true) :
    Triple nf (isTree a h g es ∗ F) (insertUniqueValue E a value)
      (fun r => ⌜∃ y ∈ es, keq E g (E.kov g.kov v) y = true ∧ r = y.node⌝ ∗ isTree a h g es ∗ F) :=
  insertUniqueValue_present hw hs hv0 hv hx hq

/-- Without memory the insertion of a key that is not there aborts, with and without a hint. -/
theorem C77_insert_unique_violated (hw : StrictWeak (klt E g)) (hs : KSorted E g (X ++ Y)) (hv0 : value.1 ≠ 0) (hv : Reads (isTree a h g (X ++ Y) ∗ F) value v)
    (hn : ∀ x ∈ X ++ Y, keq E g (E.kov g.kov v) x = false) (m : Mem V) (ho : ∀ t, m.orc t = 0) (hm : (isTree a h g (X ++ Y) ∗ F) m.cells) :
    insertUniqueValue E a value m = some (.error .abort) ∧ insertUnique E a (firstN Y h) value m = some (.error .abort) :=
  ⟨insertUniqueValue_gives hw hs hv0 hv hn m ho hm, insertUnique_gives hw hs hv0 hv hn m ho hm⟩

/-- Without memory every insertion into a multiset aborts, with and without a hint. -/
theorem C77_insert_equal_violated (hw : StrictWeak (klt E g)) (hs : KSorted E g (X ++ Y)) (hv0 : value.1 ≠ 0) (hv : Reads (isTree a h g (X ++ Y) ∗ F) value v)
    (m : Mem V) (ho : ∀ t, m.orc t = 0) (hm : (isTree a h g (X ++ Y) ∗ F) m.cells) :
    insertEqualValue E a value m = some (.error .abort) ∧ insertEqual E a (firstN Y h) value m = some (.error .abort) :=
  ⟨insertEqualValue_gives hw hs hv0 hv m ho hm, insertEqual_gives hw hs hv0 hv m ho hm⟩

/-- the public functions of sets and multisets are these -/
theorem C77_set_violated (hw : StrictWeak (klt E g)) (hs : KSorted E g es) (hv0 : value.1 ≠ 0) (hv : Reads (isTree a h g es ∗ F) value v)
    (hn : ∀ x ∈ es, keq E g (E.kov g.kov v) x = false) (m : Mem V) (ho : ∀ t, m.orc t = 0) (hm : (isTree a h g es ∗ F) m.cells) :
    CSet.insertValue E a value m = some (.error .abort) ∧ CMultiset.insertValue E a value m = some (.error .abort) :=
  ⟨insertUniqueValue_gives hw hs hv0 hv hn m ho hm, insertEqualValue_gives hw hs hv0 hv m ho hm⟩

/-- the set `1, 2` (made by inserting `3, 1, 2` and erasing `3`), memory exhausted: inserting `3` aborts, inserting `1` works -/
example : ∃ (m : Mem Nat) (a h : Addr) (es : List (Elem Nat)), (∀ t, m.orc t = 0) ∧ KSorted natEnv natCfg es ∧ (∃ x ∈ es, x.val = 1) ∧ (∀ x ∈ es, x.val ≠ 3) ∧
    (isTree a h natCfg es ∗ arr 1 1 ([3, 1, 2].map fun v => .obj (some v))) m.cells ∧
    CSet.insertValue natEnv a (1, 1) m = some (.error .abort) ∧ ∃ r m', CSet.insertValue natEnv a (1, 2) m = some (.ok (r, m')) := by
  obtain ⟨m, a, h, es, ho, h1, h2, hm⟩ := exists_tree natEnv natCfg (by simp [natCfg]) natEnv_order [3, 1, 2]
  have hr : ∀ es : List (Elem Nat), Reads (isTree a h natCfg es ∗ arr 1 1 ([3, 1, 2].map fun v => .obj (some v))) (1, 1) 3 ∧
      Reads (isTree a h natCfg es ∗ arr 1 1 ([3, 1, 2].map fun v => .obj (some v))) (1, 2) 1 := fun es =>
    ⟨Reads.right fun m hm => pts_sep_cells (R := _) hm, Reads.right fun m hm => cell_of (R := _) hm (by simp only [List.map, arr]; cancel)⟩
  obtain ⟨_, m', _, _, g2⟩ := (eraseKey_spec (nf := True) (F := arr 1 1 ([3, 1, 2].map fun v => .obj (some v))) natEnv_order h2 (by simp) (hr es).1).run (F := emp) (fun _ => ho)
    (by rw [sep_emp]; exact hm)
  rw [sep_emp] at g2
  have g3 := (hpure_sep_apply.1 g2).2
  have hs' := h2.filter (q := fun e => !keq natEnv natCfg 3 e)
  have hno : ∀ x ∈ es.filter (fun e => !keq natEnv natCfg 3 e), keq natEnv natCfg (natEnv.kov natCfg.kov 3) x = false := by
    intro x hx
    have := (List.mem_filter.1 hx).2
    rw [Bool.not_eq_true'] at this
    exact this
  have h1m : 1 ∈ vals es := h1.mem_iff.2 (by simp)
  obtain ⟨e, he, hv⟩ := List.mem_map.1 h1m
  have hv : e.val = 1 := hv
  have hin : e ∈ es.filter (fun e => !keq natEnv natCfg 3 e) := List.mem_filter.2 ⟨he, by simp [keq, equivB, klt, ek, natEnv, natCfg, hv]⟩
  refine ⟨{ m' with orc := fun _ => 0 }, a, h, _, fun _ => rfl, hs', ⟨e, hin, hv⟩, ?_, g3, ?_, ?_⟩
  · intro x hx h3
    have := hno x hx
    simp [keq, equivB, klt, ek, natEnv, natCfg, h3] at this
  · exact (C77_set_violated natEnv_order hs' (by simp) (hr _).1 hno { m' with orc := fun _ => 0 } (fun _ => rfl) g3).1
  · obtain ⟨r, m'', k1, _, _⟩ := (C77_present (nf := False) natEnv_order hs' (value := (1, 2)) (by simp) (hr _).2 hin
      (by simp [keq, equivB, klt, ek, natEnv, natCfg, hv])).run (F := emp) (s := { m' with orc := fun _ => 0 }) (fun h => h.elim) (by rw [sep_emp]; exact g3)
    exact ⟨r, m'', k1⟩

end CC.Tree
