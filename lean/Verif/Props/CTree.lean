import Verif.Tree.History
import Verif.Tree.Verify
import Verif.Tree.Range
import Verif.Tree.SetMap
/-!
# Properties C30–C39: ordered containers (`c_tree`, and with it `c_set`, `c_multiset`, `c_map`, `c_multimap`)

`isTree a h g es` (Verif/Tree/Rep.lean) says that a heap fragment is exactly a well-formed tree object `a` (header node `h`, types and functions `g`) holding the
elements `es` in iteration order; an element carries its address (`node`, `box`) and its value.  The iterator at the elements `Y` of a tree `X ++ Y` is
`firstN Y h` (the first node of `Y`, or `h`, which is `c_tree_end`).  `ek E g e` is the key of an element, `klt E g` the comparison of keys, `keq E g k e` says
that the key of `e` is equivalent to `k` (neither is smaller).  `Triple` is explained in Verif/Props/CList.lean and Verif/Core/Sep.lean.
-/
namespace CC.Tree
open CC CC.Tac T
open CC.CList (Elem nodes vals firstN lastN)
variable {V : Type} {nf : Prop} {E : Env V} {a h : Nat} {g : Cfg} {es : List (Elem V)} {F R : HProp V} {ρ : Loc → V}

/-- Non-vacuity for everything below: for all values `vs`, a memory holding a tree of `vs` exists and is reached by the API itself (`c_tree_create`,
`c_tree_insert_equal_from`). -/
theorem exists_tree (E : Env V) (g : Cfg) (hg : g.kt ≠ 0 ∧ g.vt ≠ 0 ∧ g.kov ≠ 0 ∧ g.cmp ≠ 0) (hw : StrictWeak (klt E g)) (vs : List V) :
    ∃ (m : Mem V) (a h : Addr) (es : List (Elem V)), (∀ t, m.orc t ≠ 0) ∧ (vals es).Perm vs ∧ KSorted E g es ∧
      (isTree a h g es ∗ arr 1 1 (vs.map fun v => .obj (some v))) m.cells := by
  obtain ⟨m, ho, hm⟩ := exists_array vs (fun _ => 1)
  have key : Triple True (arr 1 1 (vs.map fun v => .obj (some v))) (do
      let a ← create g.kt g.vt g.mt g.kov g.cmp
      insertEqualFrom E a (1, 1) (1, 1 + vs.length)
      pure a : M V Addr) (fun a => ∃ₛ h es, ⌜(vals es).Perm vs ∧ KSorted E g es⌝ ∗ isTree a h g es ∗ arr 1 1 (vs.map fun v => .obj (some v))) := by
    refine create_spec hg (fun h => absurd trivial h) fun a h ha => ?_
    have h1 := insertEqualFrom_spec (E := E) (a := a) (h := h) (g := g) (es := []) (F := emp) (b := 1) (i := 1) (vs := vs) hw (KSorted.iff.2 List.Pairwise.nil) (by omega)
    rw [sep_emp] at h1
    refine Triple.bind h1 fun _ => ?_
    refine Triple.ex_left fun es' => ?_
    apply Triple.pure_left
    intro hst
    obtain ⟨h2, N, h3, h4, _⟩ := Steps.equal hw (KSorted.iff.2 List.Pairwise.nil) hst
    apply Triple.ret
    apply ent_ex_right h
    apply ent_ex_right es'
    refine ent_pure_right ⟨?_, h2⟩ (ent_refl _)
    rw [← h3]
    exact (List.Perm.map _ h4)
  obtain ⟨r, m', _, ho', hm'⟩ := key.run (F := emp) (s := m) (fun _ t => by rw [ho]; simp) (by rw [sep_emp]; exact hm)
  rw [sep_emp] at hm'
  obtain ⟨h, es, hm'⟩ := hm'
  rw [hpure_sep_apply] at hm'
  exact ⟨m', r, h, es, by rw [ho', ho]; simp, hm'.1.1, hm'.1.2, hm'.2⟩

/-- sets of numbers: the key is the element, ordered by `<` -/
def natEnv : Env Nat := ⟨fun _ v => v, fun _ x y => decide (x < y)⟩
def natCfg : Cfg := ⟨1, 1, 0, 1, 1⟩
theorem natEnv_order : StrictWeak (klt natEnv natCfg) := by
  constructor <;> simp [klt, natEnv] <;> omega

example : ∃ (m : Mem Nat) (a h : Addr) (es : List (Elem Nat)), (vals es).Perm [3, 1, 2] ∧ KSorted natEnv natCfg es ∧
    (isTree a h natCfg es ∗ arr 1 1 ([3, 1, 2].map fun v => .obj (some v))) m.cells := by
  obtain ⟨m, a, h, es, _, h1, h2, hm⟩ := exists_tree natEnv natCfg (by simp [natCfg]) natEnv_order [3, 1, 2]
  exact ⟨m, a, h, es, h1, h2, hm⟩

/-! ## C30 sorted, and exactly the inserted elements -/

/-- Every history of operations terminates without undefined behaviour, does what the operations mean on sequences (`Step`, Verif/Tree/History.lean), and
leaves the elements in key order. -/
theorem C30_history {ops : List Op} (hw : StrictWeak (klt E g)) (hs : KSorted E g es) (hv : ValidOps E g R ρ ops es) :
    Triple True (isTree a h g es ∗ R) (runOps E a ops) (fun _ => ∃ₛ es', ⌜Run E g ρ ops es es' ∧ KSorted E g es'⌝ ∗ isTree a h g es' ∗ R) :=
  runOps_spec hw hs hv

/-- Reading the container from begin to end after any history gives its elements in key order. -/
theorem C30_sorted {ops : List Op} (hw : StrictWeak (klt E g)) (hs : KSorted E g es) (hv : ValidOps E g R ρ ops es) :
    Triple True (isTree a h g es ∗ R) (do runOps E a ops; readAll a)
      (fun vs => ∃ₛ es', ⌜Run E g ρ ops es es' ∧ vs = vals es' ∧ Sorted (klt E g) (vs.map (E.kov g.kov))⌝ ∗ isTree a h g es' ∗ R) := by
  refine Triple.bind (runOps_spec hw hs hv) fun _ => ?_
  refine Triple.ex_left fun es' => ?_
  apply Triple.pure_left
  rintro ⟨h1, h2⟩
  refine with_tree fun t t1 t2 t3 => ?_
  unfold readAll
  refine begin_cps t3 ?_
  refine end_cps t3 ?_
  rw [← bind_pure (walkFwd _ _)]
  have := walkFwd_cps (nf := True) (a := a) (h := h) (g := g) (t := t) (F := R) (X := []) (W := t.toList) (Y := []) (K := fun vs => (pure vs : M V _))
    (Q := fun vs => ∃ₛ es', ⌜Run E g ρ ops es es' ∧ vs = vals es' ∧ Sorted (klt E g) (vs.map (E.kov g.kov))⌝ ∗ isTree a h g es' ∗ R) (by simp) ?_
  · simpa using this
  · apply Triple.ret
    apply ent_ex_right es'
    rw [t1]
    refine ent_pure_right ⟨h1, rfl, ?_⟩ (sep_mono (shape_tree t1 t2 t3) (ent_refl R))
    have : KSorted E g es' := h2
    unfold KSorted at this
    rw [vals, List.map_map]
    exact this

/-- a valid history, on a set that is first empty: insert the numbers 7, 8, 7, insert a copy of the first element next to the end, erase the second
element, erase all elements equal to the one at position 0 -/
example (ρ : Loc → Nat) (hρ : ρ (1, 1) = 7 ∧ ρ (2, 1) = 8) :
    ValidOps natEnv natCfg (pts (1,1) (.obj (some 7)) ∗ pts (2,1) (.obj (some 8))) ρ
      [.insertEqual (.ext (1,1)), .insertEqual (.ext (2,1)), .insertEqualHint 1 (.own 0), .erase 1, .eraseKey (.own 0)] [] := by
  have r1 : Reads (pts (1,1) (.obj (some 7)) ∗ pts (2,1) (.obj (some 8))) (1,1) (ρ (1,1)) := by
    rw [hρ.1]; exact Reads.pts.left
  have r2 : Reads (pts (1,1) (.obj (some 7)) ∗ pts (2,1) (.obj (some 8))) (2,1) (ρ (2,1)) := by
    rw [hρ.2]; exact Reads.pts.right
  have lenA : ∀ (es : List (Elem Nat)) (v : Nat) (e : Elem Nat), (insAfter natEnv natCfg v es e).length = es.length + 1 := by
    intro es v e
    induction es with
    | nil => rfl
    | cons x xs ih =>
      simp only [insAfter, List.length_append, List.length_cons, List.filter_cons] at ih ⊢
      cases klt natEnv natCfg (natEnv.kov natCfg.kov v) (ek natEnv natCfg x) <;> simp at ih ⊢ <;> omega
  refine ⟨⟨by simp, r1⟩, ?_⟩
  rintro es1 ⟨v1, e1, _, _, rfl⟩
  refine ⟨⟨by simp, r2⟩, ?_⟩
  rintro es2 ⟨v2, e2, _, _, rfl⟩
  refine ⟨⟨by rw [lenA, lenA]; simp, by show 0 < _; rw [lenA]; omega⟩, ?_⟩
  rintro es3 ⟨v3, e3, _, _, rfl⟩
  have l3 : (hintIns natEnv natCfg v3 ((insAfter natEnv natCfg v2 (insAfter natEnv natCfg v1 [] e1) e2).take 1)
      ((insAfter natEnv natCfg v2 (insAfter natEnv natCfg v1 [] e1) e2).drop 1) e3).length = 3 := by
    unfold hintIns
    split
    · simp only [List.length_append, List.length_cons, List.length_take, List.length_drop, lenA]
      simp
    · rw [lenA, List.take_append_drop, lenA, lenA]; rfl
  refine ⟨by show 1 < _; rw [l3]; omega, ?_⟩
  rintro es4 rfl
  refine ⟨?_, fun _ _ => trivial⟩
  show 0 < _
  rw [List.length_eraseIdx, l3]
  simp

/-- erase removes exactly the designated element and returns the next position -/
theorem C30_erase {X Y : List (Elem V)} {e : Elem V} :
    Triple nf (isTree a h g (X ++ e :: Y) ∗ F) (erase a e.node) (fun r => ⌜r = firstN Y h⌝ ∗ isTree a h g (X ++ Y) ∗ F) := erase_spec

/-- erase_range removes exactly the designated elements -/
theorem C30_erase_range {X W Y : List (Elem V)} :
    Triple nf (isTree a h g (X ++ W ++ Y) ∗ F) (eraseRange a (firstN (W ++ Y) h) (firstN Y h)) (fun _ => isTree a h g (X ++ Y) ∗ F) := eraseRange_spec

theorem C30_clear : Triple nf (isTree a h g es ∗ F) (clear a) (fun _ => isTree a h g [] ∗ F) := clear_spec

theorem C30_swap {b h' : Nat} {g' : Cfg} {es' : List (Elem V)} :
    Triple nf (isTree a h g es ∗ isTree b h' g' es' ∗ F) (swap a b) (fun _ => isTree a h' g' es' ∗ isTree b h g es ∗ F) := swap_spec

/-- swapping a container with itself changes nothing -/
theorem C30_swap_self : Triple nf (isTree a h g es ∗ F) (swap a a) (fun _ => isTree a h g es ∗ F) := swap_self

/-! ## C31 unique insertion -/

/-- insert_unique with a key that is present changes nothing and returns the element that has it. -/
theorem C31_present {value : Loc} {v : V} {x : Elem V} (hw : StrictWeak (klt E g)) (hs : KSorted E g es) (hv0 : value.1 ≠ 0) (hv : Reads (isTree a h g es ∗ F) value v)
    (hx : x ∈ es) (hk : keq E g (E.kov g.kov v) x = true) :
    Triple True (isTree a h g es ∗ F) (insertUniqueValue E a value)
      (fun r => ⌜∃ y ∈ es, keq E g (E.kov g.kov v) y = true ∧ r = y.node⌝ ∗ isTree a h g es ∗ F) := by
  refine Triple.post (insertUniqueValue_spec hw hs hv0 hv) fun r => ?_
  refine ent_ex_left fun es' => ent_pure_left fun hu => ?_
  rcases hu with ⟨rfl, h1⟩ | ⟨h1, _⟩
  · exact ent_pure_right h1 (ent_refl _)
  · rw [h1 x hx] at hk; cases hk

/-- insert_unique with a new key adds exactly one element: a copy of the value, between the smaller and the greater keys; its iterator is returned. -/
theorem C31_absent {value : Loc} {v : V} (hw : StrictWeak (klt E g)) (hs : KSorted E g es) (hv0 : value.1 ≠ 0) (hv : Reads (isTree a h g es ∗ F) value v)
    (hn : ∀ x ∈ es, keq E g (E.kov g.kov v) x = false) :
    Triple True (isTree a h g es ∗ F) (insertUniqueValue E a value)
      (fun r => ∃ₛ X e Y, ⌜es = X ++ Y ∧ r = e.node ∧ e.val = v ∧ (∀ x ∈ X, klt E g (ek E g x) (ek E g e) = true) ∧ (∀ y ∈ Y, klt E g (ek E g e) (ek E g y) = true)⌝ ∗
        isTree a h g (X ++ e :: Y) ∗ F) := by
  refine Triple.post (insertUniqueValue_spec hw hs hv0 hv) fun r => ?_
  refine ent_ex_left fun es' => ent_pure_left fun hu => ?_
  rcases hu with ⟨rfl, x, hx, hk, _⟩ | ⟨_, e, he, hr, rfl⟩
  · rw [hn x hx] at hk; cases hk
  · apply ent_ex_right (es.filter (fun x => !klt E g (E.kov g.kov v) (ek E g x)))
    apply ent_ex_right e
    apply ent_ex_right (es.filter (fun x => klt E g (E.kov g.kov v) (ek E g x)))
    refine ent_pure_right ⟨insAfter_split hw hs v, hr, he, fun x hx => ?_, fun y hy => ?_⟩ (ent_refl _)
    · have hx' := List.mem_filter.1 hx
      have h1 := hn x hx'.1
      simp only [keq, equivB] at h1
      have h2 : klt E g (E.kov g.kov v) (ek E g x) = false := by simpa using hx'.2
      rw [h2] at h1
      simpa [ek, he] using h1
    · simpa [ek, he] using (List.mem_filter.1 hy).2

/-- the value may be a reference to an element of the container itself -/
example {X Y : List (Elem V)} {e : Elem V} (hw : StrictWeak (klt E g)) (hs : KSorted E g (X ++ e :: Y)) (hb : e.box ≠ 0) :
    Triple True (isTree a h g (X ++ e :: Y) ∗ F) (insertUniqueValue E a (e.box, 1))
      (fun r => ⌜∃ y ∈ X ++ e :: Y, keq E g (E.kov g.kov e.val) y = true ∧ r = y.node⌝ ∗ isTree a h g (X ++ e :: Y) ∗ F) :=
  C31_present (x := e) hw hs hb (reads_own rfl) (by simp) (by simp [keq, equivB, ek, hw.irrefl])

/-- operations of containers with unique keys (`c_set`, `c_map`) -/
def Op.unique : Op → Bool
  | .insertEqual _ => false
  | .insertEqualHint _ _ => false
  | _ => true

/-- No history of operations of a container with unique keys stores two equivalent keys. -/
theorem C31_history {ops : List Op} (hw : StrictWeak (klt E g)) (hs : KUnique E g es) (hu : ∀ op ∈ ops, op.unique = true) (hv : ValidOps E g R ρ ops es) :
    Triple True (isTree a h g es ∗ R) (runOps E a ops) (fun _ => ∃ₛ es', ⌜Run E g ρ ops es es' ∧ KUnique E g es'⌝ ∗ isTree a h g es' ∗ R) := by
  refine Triple.post (runOps_spec hw (hs.sorted hw) hv) fun _ => ?_
  refine ent_ex_left fun es' => ent_pure_left fun h1 => ?_
  apply ent_ex_right es'
  refine ent_pure_right ⟨h1.1, ?_⟩ (ent_refl _)
  have hr := h1.1
  clear h1
  induction hr with
  | nil => exact hs
  | @cons op ops xs ys zs hst hrun ih =>
    refine ih ?_ (fun op ho => hu op (by simp [ho])) (hv.2 _ hst)
    have hop := hu op (by simp)
    cases op with
    | insertUnique x => obtain ⟨v, r, _, h⟩ := hst; exact h.unique hw hs
    | insertUniqueHint i x => obtain ⟨v, r, _, h⟩ := hst; exact h.unique hw hs
    | insertEqual x => cases hop
    | insertEqualHint i x => cases hop
    | erase i => cases hst; exact hs.sub (List.eraseIdx_sublist _ _)
    | eraseRange i j =>
      cases hst
      refine hs.sub ?_
      have : xs = xs.take i ++ xs.drop i := by simp
      conv => rhs; rw [this]
      refine List.Sublist.append (List.Sublist.refl _) ?_
      have h1 : i ≤ j := hv.1.1
      rw [show j = i + (j - i) by omega, ← List.drop_drop]
      exact List.drop_sublist _ _
    | eraseKey x => obtain ⟨v, _, rfl⟩ := hst; exact hs.sub List.filter_sublist
    | clear => cases hst; exact KUnique.iff.2 List.Pairwise.nil

/-- insert_unique_from: afterwards each of the given values has an equivalent key in the container, no two keys are equivalent, the old elements are still there and
every new one is a copy of a given value. -/
theorem C31_insert_from {b i : Nat} {vs : List V} (hw : StrictWeak (klt E g)) (hs : KUnique E g es) (ha : a ≠ 0) (hb : b ≠ 0) :
    Triple True (isTree a h g es ∗ arr b i (vs.map fun v => .obj (some v)) ∗ F) (insertUniqueFromC E a (b, i) (b, i + vs.length))
      (fun _ => ∃ₛ es', ⌜KUnique E g es' ∧ es.Sublist es' ∧ (∀ v ∈ vs, ∃ x ∈ es', keq E g (E.kov g.kov v) x = true) ∧ (∀ x ∈ es', x ∈ es ∨ x.val ∈ vs)⌝ ∗
        isTree a h g es' ∗ arr b i (vs.map fun v => .obj (some v)) ∗ F) := by
  unfold insertUniqueFromC
  rw [if_neg (by simp [ha, hb])]
  refine Triple.post (insertUniqueFrom_spec hw (hs.sorted hw) hb) fun _ => ?_
  refine ent_ex_left fun es' => ent_pure_left fun h1 => ?_
  apply ent_ex_right es'
  exact ent_pure_right (h1.uniq hw hs) (ent_refl _)

/-- insert_unique_range with a range `W` of another tree (of any configuration): the same, and the other tree is unchanged. -/
theorem C31_insert_range {b k : Nat} {g' : Cfg} {X W Y : List (Elem V)} (hw : StrictWeak (klt E g)) (hs : KUnique E g es) :
    Triple True (isTree a h g es ∗ isTree b k g' (X ++ W ++ Y) ∗ F) (insertUniqueRange E a (firstN (W ++ Y) k) (firstN Y k))
      (fun _ => ∃ₛ es', ⌜KUnique E g es' ∧ es.Sublist es' ∧ (∀ v ∈ vals W, ∃ x ∈ es', keq E g (E.kov g.kov v) x = true) ∧ (∀ x ∈ es', x ∈ es ∨ x.val ∈ vals W)⌝ ∗
        isTree a h g es' ∗ isTree b k g' (X ++ W ++ Y) ∗ F) := by
  refine Triple.post (insertUniqueRange_spec hw (hs.sorted hw)) fun _ => ?_
  refine ent_ex_left fun es' => ent_pure_left fun h1 => ?_
  apply ent_ex_right es'
  exact ent_pure_right (h1.uniq hw hs) (ent_refl _)

/-- … and with a range of any other container, whose elements `vs` are in the slots `c i`, `c (i + 1)`, … -/
theorem C31_insert_range_any {c : Algo.Slots} {i : Nat} {vs : List V} (hw : StrictWeak (klt E g)) (hs : KUnique E g es) (hr : Algo.Rng F c i vs) (hc : ∀ j, (c j).1 ≠ 0) :
    Triple True (isTree a h g es ∗ F) (insertUniqueSlots E a c i (i + vs.length))
      (fun _ => ∃ₛ es', ⌜KUnique E g es' ∧ es.Sublist es' ∧ (∀ v ∈ vs, ∃ x ∈ es', keq E g (E.kov g.kov v) x = true) ∧ (∀ x ∈ es', x ∈ es ∨ x.val ∈ vs)⌝ ∗
        isTree a h g es' ∗ F) := by
  refine Triple.post (insertUniqueSlots_spec hw (hs.sorted hw) hr hc) fun _ => ?_
  refine ent_ex_left fun es' => ent_pure_left fun h1 => ?_
  apply ent_ex_right es'
  exact ent_pure_right (h1.uniq hw hs) (ent_refl _)

/-- a source range as required: three values in an array -/
example : Algo.Rng (arr 9 1 [.obj (some 5), .obj (some 3), .obj (some 5)] : HProp Nat) (fun j => (9, j)) 1 [5, 3, 5] ∧ ∀ j : Nat, ((9, j) : Loc).1 ≠ 0 := by
  refine ⟨fun k hk => ?_, by simp⟩
  simp only [arr]
  have : k = 0 ∨ k = 1 ∨ k = 2 := by simp at hk; omega
  rcases this with rfl | rfl | rfl
  · exact Reads.pts.left
  · exact Reads.pts.left.right
  · exact Reads.pts.left.right.right

/-! ## C32 equal insertion -/

/-- insert_equal adds a copy of the value behind all elements whose key is not greater, before those with a greater key. -/
theorem C32_insert_equal {value : Loc} {v : V} (hw : StrictWeak (klt E g)) (hs : KSorted E g es) (hv0 : value.1 ≠ 0) (hv : Reads (isTree a h g es ∗ F) value v) :
    Triple True (isTree a h g es ∗ F) (insertEqualValue E a value)
      (fun r => ∃ₛ X e Y, ⌜es = X ++ Y ∧ r = e.node ∧ e.val = v ∧ (∀ x ∈ X, klt E g (ek E g e) (ek E g x) = false) ∧ (∀ y ∈ Y, klt E g (ek E g e) (ek E g y) = true)⌝ ∗
        isTree a h g (X ++ e :: Y) ∗ F) := by
  refine Triple.post (insertEqualValue_spec hw hs hv0 hv) fun r => ?_
  refine ent_ex_left fun e => ent_pure_left fun hu => ?_
  apply ent_ex_right (es.filter (fun x => !klt E g (E.kov g.kov v) (ek E g x)))
  apply ent_ex_right e
  apply ent_ex_right (es.filter (fun x => klt E g (E.kov g.kov v) (ek E g x)))
  refine ent_pure_right ⟨insAfter_split hw hs v, hu.1, hu.2, fun x hx => ?_, fun y hy => ?_⟩ (ent_refl _)
  · have hx' := List.mem_filter.1 hx
    simpa [ek, hu.2] using hx'.2
  · simpa [ek, hu.2] using (List.mem_filter.1 hy).2

/-- Inserting an array of values one after the other gives the stably sorted sequence of old and new elements: equivalent elements stay in insertion order. -/
theorem C32_insert_from {b i : Nat} {vs : List V} (hw : StrictWeak (klt E g)) (hs : KSorted E g es) (ha : a ≠ 0) (hb : b ≠ 0) :
    Triple True (isTree a h g es ∗ arr b i (vs.map fun v => .obj (some v)) ∗ F) (insertEqualFromC E a (b, i) (b, i + vs.length))
      (fun _ => ∃ₛ es', ⌜KSorted E g es' ∧ ∃ N : List (Elem V), vals N = vs ∧ es'.Perm (es ++ N) ∧ ∀ k, es'.filter (keq E g k) = (es ++ N).filter (keq E g k)⌝ ∗
        isTree a h g es' ∗ arr b i (vs.map fun v => .obj (some v)) ∗ F) := by
  unfold insertEqualFromC
  rw [if_neg (by simp [ha, hb])]
  refine Triple.post (insertEqualFrom_spec hw hs hb) fun _ => ?_
  refine ent_ex_left fun es' => ent_pure_left fun h1 => ?_
  apply ent_ex_right es'
  exact ent_pure_right (h1.equal hw hs) (ent_refl _)

/-- insert_equal_range with a range `W` of another tree: the same, and the other tree is unchanged. -/
theorem C32_insert_range {b k : Nat} {g' : Cfg} {X W Y : List (Elem V)} (hw : StrictWeak (klt E g)) (hs : KSorted E g es) :
    Triple True (isTree a h g es ∗ isTree b k g' (X ++ W ++ Y) ∗ F) (insertEqualRange E a (firstN (W ++ Y) k) (firstN Y k))
      (fun _ => ∃ₛ es', ⌜KSorted E g es' ∧ ∃ N : List (Elem V), vals N = vals W ∧ es'.Perm (es ++ N) ∧ ∀ k, es'.filter (keq E g k) = (es ++ N).filter (keq E g k)⌝ ∗
        isTree a h g es' ∗ isTree b k g' (X ++ W ++ Y) ∗ F) := by
  refine Triple.post (insertEqualRange_spec hw hs) fun _ => ?_
  refine ent_ex_left fun es' => ent_pure_left fun h1 => ?_
  apply ent_ex_right es'
  exact ent_pure_right (h1.equal hw hs) (ent_refl _)

/-- … and with a range of any other container -/
theorem C32_insert_range_any {c : Algo.Slots} {i : Nat} {vs : List V} (hw : StrictWeak (klt E g)) (hs : KSorted E g es) (hr : Algo.Rng F c i vs) (hc : ∀ j, (c j).1 ≠ 0) :
    Triple True (isTree a h g es ∗ F) (insertEqualSlots E a c i (i + vs.length))
      (fun _ => ∃ₛ es', ⌜KSorted E g es' ∧ ∃ N : List (Elem V), vals N = vs ∧ es'.Perm (es ++ N) ∧ ∀ k, es'.filter (keq E g k) = (es ++ N).filter (keq E g k)⌝ ∗
        isTree a h g es' ∗ F) := by
  refine Triple.post (insertEqualSlots_spec hw hs hr hc) fun _ => ?_
  refine ent_ex_left fun es' => ent_pure_left fun h1 => ?_
  apply ent_ex_right es'
  exact ent_pure_right (h1.equal hw hs) (ent_refl _)

/-! ## C33 balance -/

/-- After every history the linked nodes form a binary tree that obeys the red-black rules and whose height is at most `2 * log2 (n + 1)`. -/
theorem C33_balanced {ops : List Op} (hw : StrictWeak (klt E g)) (hs : KSorted E g es) (hv : ValidOps E g R ρ ops es) :
    Triple True (isTree a h g es ∗ R) (runOps E a ops)
      (fun _ => ∃ₛ t, ⌜Run E g ρ ops es t.toList ∧ t.color = .black ∧ (∃ n, t.RB n) ∧ t.height ≤ 2 * Nat.log2 (t.toList.length + 1)⌝ ∗ isShape a h g t ∗ R) := by
  refine Triple.post (runOps_spec hw hs hv) fun _ => ?_
  refine ent_ex_left fun es' => ent_pure_left fun h1 => ?_
  unfold isTree
  refine ent_ex_left' fun t => ?_
  rw [sep_assoc]
  refine ent_pure_left fun h2 => ?_
  apply ent_ex_right t
  refine ent_pure_right ⟨by rw [h2.1]; exact h1.1, h2.2.1.1, h2.2.1.2, h2.2.1.height_le⟩ (ent_refl _)

/-- c_tree_rb_verify (which re-checks colors, order, black counts and the header's links) accepts every tree: the check is never a false alarm. -/
theorem C33_rb_verify (hs : KSorted E g es) : Triple nf (isTree a h g es ∗ F) (rbVerify E a) (fun r => ⌜r = true⌝ ∗ isTree a h g es ∗ F) := rbVerify_spec hs

/-- in particular after every history -/
theorem C33_rb_verify_history {ops : List Op} (hw : StrictWeak (klt E g)) (hs : KSorted E g es) (hv : ValidOps E g R ρ ops es) :
    Triple True (isTree a h g es ∗ R) (do runOps E a ops; rbVerify E a) (fun r => ∃ₛ es', ⌜r = true ∧ Run E g ρ ops es es'⌝ ∗ isTree a h g es' ∗ R) := by
  refine Triple.bind (runOps_spec hw hs hv) fun _ => ?_
  refine Triple.ex_left fun es' => ?_
  apply Triple.pure_left
  rintro ⟨h1, h2⟩
  refine Triple.post (rbVerify_spec h2) fun r => ?_
  refine ent_pure_left fun hr => ?_
  apply ent_ex_right es'
  exact ent_pure_right ⟨hr, h1⟩ (ent_refl _)

/-! ## C34 lookup -/

/-- find returns an element with an equivalent key, or end if there is none -/
theorem C34_find {key : Loc} {v : V} (hw : StrictWeak (klt E g)) (hs : KSorted E g es) (hk0 : key.1 ≠ 0) (hv : Reads (isTree a h g es ∗ F) key v) :
    Triple nf (isTree a h g es ∗ F) (find E a key)
      (fun r => ⌜(∃ e ∈ es, keq E g v e = true ∧ r = e.node) ∨ ((∀ e ∈ es, keq E g v e = false) ∧ r = h)⌝ ∗ isTree a h g es ∗ F) := by
  refine with_tree fun t h1 h2 h3 => ?_
  rw [← bind_pure (find E a key)]
  refine find_cps hw (h1.symm ▸ hs) h3 hk0 (reads_shape h1 h2 h3 hv) (fun e he hk => ?_) fun hn => ?_
  · exact Triple.ret (ent_pure_right (Or.inl ⟨e, h1 ▸ he, hk, rfl⟩) (sep_mono (shape_tree h1 h2 h3) (ent_refl F)))
  · exact Triple.ret (ent_pure_right (Or.inr ⟨fun e he => hn e (h1.symm ▸ he), rfl⟩) (sep_mono (shape_tree h1 h2 h3) (ent_refl F)))

/-- lower_bound returns the position that separates the elements with smaller keys from the others -/
theorem C34_lower_bound {key : Loc} {v : V} (hw : StrictWeak (klt E g)) (hs : KSorted E g es) (hk0 : key.1 ≠ 0) (hv : Reads (isTree a h g es ∗ F) key v) :
    Triple nf (isTree a h g es ∗ F) (lowerBound E a key)
      (fun r => ⌜∃ X Y, es = X ++ Y ∧ r = firstN Y h ∧ (∀ x ∈ X, klt E g (ek E g x) v = true) ∧ (∀ y ∈ Y, klt E g (ek E g y) v = false)⌝ ∗ isTree a h g es ∗ F) := by
  refine with_tree fun t h1 h2 h3 => ?_
  rw [← bind_pure (lowerBound E a key)]
  refine lowerBound_cps hw (h1.symm ▸ hs) h3 hk0 (reads_shape h1 h2 h3 hv) ?_
  refine Triple.ret (ent_pure_right ⟨_, _, (hs.lower (v := v) hw).split, by rw [h1], fun x hx => (List.mem_filter.1 hx).2, fun y hy => ?_⟩ (sep_mono (shape_tree h1 h2 h3) (ent_refl F)))
  simpa using (List.mem_filter.1 hy).2

/-- upper_bound returns the position that separates the elements with keys not greater from those with greater keys -/
theorem C34_upper_bound {key : Loc} {v : V} (hw : StrictWeak (klt E g)) (hs : KSorted E g es) (hk0 : key.1 ≠ 0) (hv : Reads (isTree a h g es ∗ F) key v) :
    Triple nf (isTree a h g es ∗ F) (upperBound E a key)
      (fun r => ⌜∃ X Y, es = X ++ Y ∧ r = firstN Y h ∧ (∀ x ∈ X, klt E g v (ek E g x) = false) ∧ (∀ y ∈ Y, klt E g v (ek E g y) = true)⌝ ∗ isTree a h g es ∗ F) := by
  refine with_tree fun t h1 h2 h3 => ?_
  rw [← bind_pure (upperBound E a key)]
  refine upperBound_cps hw (h1.symm ▸ hs) h3 hk0 (reads_shape h1 h2 h3 hv) ?_
  have hsp := (hs.upper (v := v) hw).split
  simp only [Bool.not_not] at hsp
  refine Triple.ret (ent_pure_right ⟨_, _, hsp, by rw [h1], fun x hx => ?_, fun y hy => (List.mem_filter.1 hy).2⟩ (sep_mono (shape_tree h1 h2 h3) (ent_refl F)))
  simpa using (List.mem_filter.1 hx).2

/-- count returns the number of elements with an equivalent key -/
theorem C34_count {key : Loc} {v : V} (hw : StrictWeak (klt E g)) (hs : KSorted E g es) (hk0 : key.1 ≠ 0) (hv : Reads (isTree a h g es ∗ F) key v) :
    Triple nf (isTree a h g es ∗ F) (count E a key) (fun r => ⌜r = es.countP (keq E g v)⌝ ∗ isTree a h g es ∗ F) := by
  refine with_tree fun t h1 h2 h3 => ?_
  rw [← bind_pure (count E a key)]
  refine count_cps hw (h1.symm ▸ hs) hk0 (reads_shape h1 h2 h3 hv) ?_
  rw [h1]
  exact Triple.ret (ent_pure_right rfl (sep_mono (shape_tree h1 h2 h3) (ent_refl F)))

/-- equal_range stores in the caller's iterators the two ends of the range of elements with an equivalent key -/
theorem C34_equal_range {key lower upper : Loc} {v : V} {l u x y : Nat} (hw : StrictWeak (klt E g)) (hs : KSorted E g es) (hk0 : key.1 ≠ 0)
    (hv : Reads (isTree a h g es ∗ F) key v) (hl : l ≠ 0) (hu : u ≠ 0) :
    Triple nf (isTree a h g es ∗ pts lower (.num l) ∗ pts upper (.num u) ∗ fld l 2 x ∗ fld u 2 y ∗ F) (equalRange E a key lower upper)
      (fun _ => ∃ₛ X W Y, ⌜es = X ++ W ++ Y ∧ (∀ x ∈ X, klt E g (ek E g x) v = true) ∧ (∀ w ∈ W, keq E g v w = true) ∧ (∀ y ∈ Y, klt E g v (ek E g y) = true)⌝ ∗
        isTree a h g es ∗ pts lower (.num l) ∗ pts upper (.num u) ∗ fld l 2 (firstN (W ++ Y) h) ∗ fld u 2 (firstN Y h) ∗ F) := by
  refine Triple.post (equalRange_spec hw hs hk0 hv hl hu) fun _ => ?_
  obtain ⟨k1, k2, k3⟩ := hs.three (v := v) hw
  apply ent_ex_right (es.filter (fun e => klt E g (ek E g e) v))
  apply ent_ex_right (es.filter (keq E g v))
  apply ent_ex_right (es.filter (fun e => klt E g v (ek E g e)))
  rw [k2]
  exact ent_pure_right ⟨k1, fun x hx => (List.mem_filter.1 hx).2, fun x hx => (List.mem_filter.1 hx).2, fun x hx => (List.mem_filter.1 hx).2⟩ (ent_refl _)

/-- `c_set_equal_range` gives the two ends of the range of elements with an equivalent key -/
theorem C34_equal_range_set (hw : StrictWeak (klt E g)) (hs : KSorted E g es) (hk0 : key.1 ≠ 0) (hv : Reads (isTree a h g es ∗ F) key v) (hl : l ≠ 0) (hu : u ≠ 0) :
    Triple nf (isTree a h g es ∗ pts lower (.num l) ∗ pts upper (.num u) ∗ fld l 2 x ∗ fld u 2 y ∗ F) (CSet.equalRange E a key lower upper)
      (fun _ => ∃ₛ X W Y, ⌜es = X ++ W ++ Y ∧ (∀ x ∈ X, klt E g (ek E g x) v = true) ∧ (∀ w ∈ W, keq E g v w = true) ∧ (∀ y ∈ Y, klt E g v (ek E g y) = true)⌝ ∗
        isTree a h g es ∗ pts lower (.num l) ∗ pts upper (.num u) ∗ fld l 2 (firstN (W ++ Y) h) ∗ fld u 2 (firstN Y h) ∗ F) :=
  C34_equal_range hw hs hk0 hv hl hu

/-- `c_multiset_equal_range` gives the two ends of the range of elements with an equivalent key -/
theorem C34_equal_range_multiset (hw : StrictWeak (klt E g)) (hs : KSorted E g es) (hk0 : key.1 ≠ 0) (hv : Reads (isTree a h g es ∗ F) key v) (hl : l ≠ 0) (hu : u ≠ 0) :
    Triple nf (isTree a h g es ∗ pts lower (.num l) ∗ pts upper (.num u) ∗ fld l 2 x ∗ fld u 2 y ∗ F) (CMultiset.equalRange E a key lower upper)
      (fun _ => ∃ₛ X W Y, ⌜es = X ++ W ++ Y ∧ (∀ x ∈ X, klt E g (ek E g x) v = true) ∧ (∀ w ∈ W, keq E g v w = true) ∧ (∀ y ∈ Y, klt E g v (ek E g y) = true)⌝ ∗
        isTree a h g es ∗ pts lower (.num l) ∗ pts upper (.num u) ∗ fld l 2 (firstN (W ++ Y) h) ∗ fld u 2 (firstN Y h) ∗ F) :=
  C34_equal_range hw hs hk0 hv hl hu

/-- `c_map_equal_range` gives the two ends of the range of elements with an equivalent key -/
theorem C34_equal_range_map (hw : StrictWeak (klt E g)) (hs : KSorted E g es) (hk0 : key.1 ≠ 0) (hv : Reads (isTree a h g es ∗ F) key v) (hl : l ≠ 0) (hu : u ≠ 0) :
    Triple nf (isTree a h g es ∗ pts lower (.num l) ∗ pts upper (.num u) ∗ fld l 2 x ∗ fld u 2 y ∗ F) (CMap.equalRange E a key lower upper)
      (fun _ => ∃ₛ X W Y, ⌜es = X ++ W ++ Y ∧ (∀ x ∈ X, klt E g (ek E g x) v = true) ∧ (∀ w ∈ W, keq E g v w = true) ∧ (∀ y ∈ Y, klt E g v (ek E g y) = true)⌝ ∗
        isTree a h g es ∗ pts lower (.num l) ∗ pts upper (.num u) ∗ fld l 2 (firstN (W ++ Y) h) ∗ fld u 2 (firstN Y h) ∗ F) :=
  C34_equal_range hw hs hk0 hv hl hu

/-- `c_multimap_equal_range` gives the two ends of the range of elements with an equivalent key -/
theorem C34_equal_range_multimap (hw : StrictWeak (klt E g)) (hs : KSorted E g es) (hk0 : key.1 ≠ 0) (hv : Reads (isTree a h g es ∗ F) key v) (hl : l ≠ 0) (hu : u ≠ 0) :
    Triple nf (isTree a h g es ∗ pts lower (.num l) ∗ pts upper (.num u) ∗ fld l 2 x ∗ fld u 2 y ∗ F) (CMultimap.equalRange E a key lower upper)
      (fun _ => ∃ₛ X W Y, ⌜es = X ++ W ++ Y ∧ (∀ x ∈ X, klt E g (ek E g x) v = true) ∧ (∀ w ∈ W, keq E g v w = true) ∧ (∀ y ∈ Y, klt E g v (ek E g y) = true)⌝ ∗
        isTree a h g es ∗ pts lower (.num l) ∗ pts upper (.num u) ∗ fld l 2 (firstN (W ++ Y) h) ∗ fld u 2 (firstN Y h) ∗ F) :=
  C34_equal_range hw hs hk0 hv hl hu

/-! ## C35 erasing by key -/

/-- erase_key removes exactly the elements with an equivalent key and returns their number; the key may be a reference into the container. -/
theorem C35_erase_key {key : Loc} {v : V} (hw : StrictWeak (klt E g)) (hs : KSorted E g es) (hk0 : key.1 ≠ 0) (hv : Reads (isTree a h g es ∗ F) key v) :
    Triple nf (isTree a h g es ∗ F) (eraseKey E a key)
      (fun r => ⌜r = es.countP (keq E g v)⌝ ∗ isTree a h g (es.filter fun e => !keq E g v e) ∗ F) := eraseKey_spec hw hs hk0 hv

/-- erase_from over an array of keys, where keys have the size of elements (sets): removes exactly the elements with a key equivalent to one of them -/
theorem C35_erase_from {b i : Nat} {vs : List V} (hw : StrictWeak (klt E g)) (hs : KSorted E g es) (hb : b ≠ 0) :
    Triple nf (isTree a h g es ∗ arr b i (vs.map fun v => .obj (some v)) ∗ F) (eraseFromC E 1 a (b, i) (b, i + vs.length))
      (fun _ => isTree a h g (es.filter fun e => !vs.any fun v => keq E g v e) ∗ arr b i (vs.map fun v => .obj (some v)) ∗ F) := eraseFromC_spec hw hs hb

/-- the same for `c_set_erase_from` and `c_multiset_erase_from` -/
theorem C35_set_erase_from {b i : Nat} {vs : List V} (hw : StrictWeak (klt E g)) (hs : KSorted E g es) (hb : b ≠ 0) :
    Triple nf (isTree a h g es ∗ arr b i (vs.map fun v => .obj (some v)) ∗ F) (CSet.eraseFrom E 1 a (b, i) (b, i + vs.length))
      (fun _ => isTree a h g (es.filter fun e => !vs.any fun v => keq E g v e) ∗ arr b i (vs.map fun v => .obj (some v)) ∗ F) := eraseFromC_spec hw hs hb
theorem C35_multiset_erase_from {b i : Nat} {vs : List V} (hw : StrictWeak (klt E g)) (hs : KSorted E g es) (hb : b ≠ 0) :
    Triple nf (isTree a h g es ∗ arr b i (vs.map fun v => .obj (some v)) ∗ F) (CMultiset.eraseFrom E 1 a (b, i) (b, i + vs.length))
      (fun _ => isTree a h g (es.filter fun e => !vs.any fun v => keq E g v e) ∗ arr b i (vs.map fun v => .obj (some v)) ∗ F) := eraseFromC_spec hw hs hb

/-! ## C61 erasing an array of keys when keys and elements have different sizes (maps) -/

/-- What `c_tree_erase_from` (and with it `c_map_erase_from`, `c_multimap_erase_from`) does when `size()` of the element type is `1 + k` times `size()` of the key type, and the array
consists of groups of `1 + k` keys: only the elements equivalent to the first key of each group are erased. -/
theorem eraseFrom_strided {b i k : Nat} {gs : List (V × List V)} (hw : StrictWeak (klt E g)) (hs : KSorted E g es) (hb : b ≠ 0) (hk : ∀ p ∈ gs, p.2.length = k) :
    Triple nf (isTree a h g es ∗ arr b i ((gs.flatMap fun p => p.1 :: p.2).map fun v => .obj (some v)) ∗ F)
      (eraseFrom E (1 + k) a (b, i) (b, i + (gs.flatMap fun p => p.1 :: p.2).length))
      (fun _ => isTree a h g (es.filter fun e => !gs.any fun p => keq E g p.1 e) ∗ arr b i ((gs.flatMap fun p => p.1 :: p.2).map fun v => .obj (some v)) ∗ F) := by
  induction gs generalizing i es F with
  | nil =>
    rw [eraseFrom, if_neg (by simp)]
    apply Triple.ret
    rw [List.filter_eq_self.2 (by simp)]
    exact ent_refl _
  | cons p gs ih =>
    obtain ⟨v, vs⟩ := p
    have hlen : vs.length = k := hk (v, vs) (by simp)
    have hlen' : ((v :: vs).map fun v => (.obj (some v) : Val V)).length = 1 + k := by simp [hlen]; omega
    rw [eraseFrom, if_pos (by simp)]
    simp only [List.flatMap_cons, List.map_append, arr_append, hlen']
    conv => arg 2; rw [List.map_cons, arr]
    simp only [sep_assoc]
    refine Triple.bind (eraseKey_spec (v := v) hw hs hb ?_) fun r => ?_
    · intro m hm
      exact pts_sep_cells (R := _) ((show _ ⊢ₛ _ by cancel) _ hm)
    apply Triple.pure_left
    rintro _
    have := ih (i := i + (1 + k)) (es := es.filter fun e => !keq E g v e) (F := arr b i ((v :: vs).map fun v => .obj (some v)) ∗ F) hs.filter
      (fun q hq => hk q (List.mem_cons_of_mem _ hq))
    have e2 : i + ((v :: vs) ++ gs.flatMap fun p => p.1 :: p.2).length = i + (1 + k) + (gs.flatMap fun p => p.1 :: p.2).length := by
      simp only [List.length_append, List.length_cons, hlen]; omega
    rw [e2]
    refine Triple.conseq this (by rw [List.map_cons, arr]; cancel) ?_
    intro _
    have e1 : (es.filter fun e => !keq E g v e).filter (fun e => !gs.any fun p => keq E g p.1 e) = es.filter fun e => !((v, vs) :: gs).any fun p => keq E g p.1 e := by
      rw [List.filter_filter]
      apply List.filter_congr
      intro x _
      simp only [List.any_cons, Bool.not_or]
      exact Bool.and_comm _ _
    rw [e1]
    cancel

/-- the same for the whole function -/
theorem C61_erase_from_strided {b i k : Nat} {gs : List (V × List V)} (hw : StrictWeak (klt E g)) (hs : KSorted E g es) (hb : b ≠ 0) (hk : ∀ p ∈ gs, p.2.length = k) :
    Triple nf (isTree a h g es ∗ arr b i ((gs.flatMap fun p => p.1 :: p.2).map fun v => .obj (some v)) ∗ F)
      (CMap.eraseFrom E (1 + k) a (b, i) (b, i + (gs.flatMap fun p => p.1 :: p.2).length))
      (fun _ => isTree a h g (es.filter fun e => !gs.any fun p => keq E g p.1 e) ∗ arr b i ((gs.flatMap fun p => p.1 :: p.2).map fun v => .obj (some v)) ∗ F) := by
  refine with_tree fun t h1 h2 h3 => ?_
  refine with_facts fun hf => ?_
  refine Triple.pre (sep_mono (shape_tree h1 h2 h3) (ent_refl _)) ?_
  unfold CMap.eraseFrom eraseFromC
  rw [if_neg (by simp [hf.a0, hb])]
  exact eraseFrom_strided hw hs hb hk

/-- `c_multimap_erase_from` does the same -/
theorem C61_multimap_erase_from_strided {b i k : Nat} {gs : List (V × List V)} (hw : StrictWeak (klt E g)) (hs : KSorted E g es) (hb : b ≠ 0) (hk : ∀ p ∈ gs, p.2.length = k) :
    Triple nf (isTree a h g es ∗ arr b i ((gs.flatMap fun p => p.1 :: p.2).map fun v => .obj (some v)) ∗ F)
      (CMultimap.eraseFrom E (1 + k) a (b, i) (b, i + (gs.flatMap fun p => p.1 :: p.2).length))
      (fun _ => isTree a h g (es.filter fun e => !gs.any fun p => keq E g p.1 e) ∗ arr b i ((gs.flatMap fun p => p.1 :: p.2).map fun v => .obj (some v)) ∗ F) :=
  C61_erase_from_strided hw hs hb hk

/-- The part of C61 that holds: if keys are as large as elements, all the keys are erased. -/
theorem C61_erase_from_partial {b i : Nat} {vs : List V} (hw : StrictWeak (klt E g)) (hs : KSorted E g es) (hb : b ≠ 0) :
    Triple nf (isTree a h g es ∗ arr b i (vs.map fun v => .obj (some v)) ∗ F) (CMap.eraseFrom E 1 a (b, i) (b, i + vs.length))
      (fun _ => isTree a h g (es.filter fun e => !vs.any fun v => keq E g v e) ∗ arr b i (vs.map fun v => .obj (some v)) ∗ F) := eraseFromC_spec hw hs hb

/-- C61 is violated: erasing the keys `v :: w :: ws` from a map whose elements are as large as that many keys erases `v` only: every element equivalent to `w` and not to `v` stays. -/
theorem C61_erase_from_violated {b i : Nat} {v w : V} {ws : List V} {e : Elem V} (hw : StrictWeak (klt E g)) (hs : KSorted E g es) (hb : b ≠ 0)
    (he : e ∈ es) (h1 : keq E g w e = true) (h2 : keq E g v e = false) :
    Triple nf (isTree a h g es ∗ arr b i ((v :: w :: ws).map fun v => .obj (some v)) ∗ F)
      (CMap.eraseFrom E (v :: w :: ws).length a (b, i) (b, i + (v :: w :: ws).length))
      (fun _ => ∃ₛ es', ⌜e ∈ es'⌝ ∗ isTree a h g es' ∗ arr b i ((v :: w :: ws).map fun v => .obj (some v)) ∗ F) := by
  have := C61_erase_from_strided (nf := nf) (a := a) (h := h) (F := F) (b := b) (i := i) (k := ws.length + 1) (gs := [(v, w :: ws)]) hw hs hb (by simp)
  simp only [List.flatMap_cons, List.flatMap_nil, List.append_nil] at this
  rw [show (v :: w :: ws).length = 1 + (ws.length + 1) by simp; omega]
  rw [show (v :: w :: ws).length = 1 + (ws.length + 1) by simp; omega] at this
  refine Triple.post this fun _ => ?_
  apply ent_ex_right
  refine ent_pure_right ?_ (ent_refl _)
  rw [List.mem_filter]
  exact ⟨he, by simp [h2]⟩

/-- reached by the API: the container with 3, 1, 2, from which the keys 3, 1, 2 are erased; 1 is still there -/
example : ∃ (m : Mem Nat) (a h : Addr) (es es' : List (Elem Nat)) (m' : Mem Nat) (e : Elem Nat), (vals es).Perm [3, 1, 2] ∧
    (isTree a h natCfg es ∗ arr 1 1 ([3, 1, 2].map fun v => .obj (some v))) m.cells ∧
    CMap.eraseFrom natEnv 3 a (1, 1) (1, 4) m = some (.ok ((), m')) ∧ e ∈ es' ∧ e.val = 1 ∧
    (isTree a h natCfg es' ∗ arr 1 1 ([3, 1, 2].map fun v => .obj (some v))) m'.cells := by
  obtain ⟨m, a, h, es, ho, h1, h2, hm⟩ := exists_tree natEnv natCfg (by simp [natCfg]) natEnv_order [3, 1, 2]
  have : 1 ∈ vals es := h1.mem_iff.2 (by simp)
  obtain ⟨e, he, hv⟩ := List.mem_map.1 this
  have hv : e.val = 1 := hv
  obtain ⟨_, m', g1, _, g2⟩ := (C61_erase_from_violated (nf := True) (a := a) (h := h) (F := emp) (b := 1) (i := 1) (v := 3) (w := 1) (ws := [2]) natEnv_order h2 (by simp) he
    (by simp [keq, equivB, klt, ek, natEnv, natCfg, hv]) (by simp [keq, equivB, klt, ek, natEnv, natCfg, hv])).run (F := emp) (fun _ => ho) (by rw [sep_emp, sep_emp]; exact hm)
  rw [sep_emp] at g2
  obtain ⟨es', g2⟩ := g2
  rw [hpure_sep_apply] at g2
  refine ⟨m, a, h, es, es', m', e, h1, hm, g1, g2.1, hv, ?_⟩
  have := g2.2
  rw [sep_emp] at this
  exact this

/-! ## C36 iteration -/

/-- increment goes to the next element, at the last one to end -/
theorem C36_increment {X Y : List (Elem V)} {e : Elem V} :
    Triple nf (isTree a h g (X ++ e :: Y) ∗ F) (iterIncrement e.node) (fun r => ⌜r = firstN Y h⌝ ∗ isTree a h g (X ++ e :: Y) ∗ F) := by
  refine with_tree fun t h1 h2 h3 => ?_
  rw [← bind_pure (iterIncrement _)]
  refine increment_cps h1 ?_
  exact Triple.ret (ent_pure_right rfl (sep_mono (shape_tree h1 h2 h3) (ent_refl F)))

/-- decrement goes to the element before, from any position (also end) -/
theorem C36_decrement {X Y : List (Elem V)} {e : Elem V} :
    Triple nf (isTree a h g (X ++ e :: Y) ∗ F) (iterDecrement (firstN Y h)) (fun r => ⌜r = e.node⌝ ∗ isTree a h g (X ++ e :: Y) ∗ F) := by
  refine with_tree fun t h1 h2 h3 => ?_
  rw [← bind_pure (iterDecrement _)]
  have hl : t.toList = (X ++ [e]) ++ Y := by rw [h1]; simp
  refine decrement_pos hl h2 (by simp) ?_
  refine Triple.ret (ent_pure_right ?_ (sep_mono (shape_tree h1 h2 h3) (ent_refl F)))
  rw [CList.lastN_append_cons]
  rfl

/-- reading from begin to end -/
theorem C36_forward : Triple nf (isTree a h g es ∗ F) (readAll a) (fun vs => ⌜vs = vals es⌝ ∗ isTree a h g es ∗ F) := by
  refine with_tree fun t h1 h2 h3 => ?_
  unfold readAll
  refine begin_cps h3 ?_
  refine end_cps h3 ?_
  rw [← bind_pure (walkFwd _ _)]
  have := walkFwd_cps (nf := nf) (a := a) (h := h) (g := g) (t := t) (F := F) (X := []) (W := t.toList) (Y := []) (K := fun vs => (pure vs : M V _))
    (Q := fun vs => ⌜vs = vals es⌝ ∗ isTree a h g es ∗ F) (by simp) ?_
  · simpa using this
  · exact Triple.ret (ent_pure_right (by rw [h1]) (sep_mono (shape_tree h1 h2 h3) (ent_refl F)))

/-- reading from rbegin to rend -/
theorem C36_backward : Triple nf (isTree a h g es ∗ F) (readAllRev a) (fun vs => ⌜vs = (vals es).reverse⌝ ∗ isTree a h g es ∗ F) := by
  refine with_tree fun t h1 h2 h3 => ?_
  unfold readAllRev rbegin rend
  refine end_cps h3 ?_
  refine begin_cps h3 ?_
  rw [← bind_pure (walkRev _ _)]
  have := walkRev_cps (nf := nf) (a := a) (h := h) (g := g) (t := t) (F := F) (X := []) (W := t.toList) (Y := []) (K := fun vs => (pure vs : M V _))
    (Q := fun vs => ⌜vs = (vals es).reverse⌝ ∗ isTree a h g es ∗ F) (by simp) h2 ?_
  · simpa using this
  · exact Triple.ret (ent_pure_right (by rw [h1]) (sep_mono (shape_tree h1 h2 h3) (ent_refl F)))

/-- begin is the position of the whole sequence, end the position behind it -/
theorem C36_begin_end : Triple nf (isTree a h g es ∗ F) (do let b ← begin_ a; let e ← end_ a; pure (b, e))
    (fun r => ⌜r.1 = firstN es h ∧ r.2 = h ∧ (r.1 = r.2 ↔ es = [])⌝ ∗ isTree a h g es ∗ F) := by
  refine with_tree fun t h1 h2 h3 => ?_
  refine with_facts fun hf => ?_
  refine begin_cps h3 ?_
  refine end_cps h3 ?_
  refine Triple.ret (ent_pure_right ⟨by rw [h1], rfl, ?_⟩ (sep_mono (shape_tree h1 h2 h3) (ent_refl F)))
  rw [h1] at hf ⊢
  cases es with
  | nil => simp
  | cons e es => simp [(hf.ne e (by simp)).1]

theorem C36_size : Triple nf (isTree a h g es ∗ F) (size a) (fun r => ⌜r = es.length⌝ ∗ isTree a h g es ∗ F) := by
  refine with_tree fun t h1 h2 h3 => ?_
  rw [← bind_pure (size a)]
  refine size_cps ?_
  exact Triple.ret (ent_pure_right (by rw [h1]) (sep_mono (shape_tree h1 h2 h3) (ent_refl F)))

theorem C36_empty : Triple nf (isTree a h g es ∗ F) (empty a) (fun r => ⌜r = true ↔ es = []⌝ ∗ isTree a h g es ∗ F) := by
  refine with_tree fun t h1 h2 h3 => ?_
  rw [← bind_pure (empty a)]
  refine empty_cps ?_
  exact Triple.ret (ent_pure_right (by rw [h1]; exact List.isEmpty_iff) (sep_mono (shape_tree h1 h2 h3) (ent_refl F)))

/-- the distance of two positions is the number of elements between them -/
theorem C36_distance {X W Y : List (Elem V)} :
    Triple nf (isTree a h g (X ++ W ++ Y) ∗ F) (iterDistance (firstN (W ++ Y) h) (firstN Y h)) (fun r => ⌜r = W.length⌝ ∗ isTree a h g (X ++ W ++ Y) ∗ F) := by
  refine with_tree fun t h1 h2 h3 => ?_
  unfold iterDistance
  rw [← bind_pure (distanceLoop _ _ _)]
  refine distanceLoop_cps h1 ?_
  exact Triple.ret (ent_pure_right (by simp) (sep_mono (shape_tree h1 h2 h3) (ent_refl F)))

/-- advancing by the number of elements in between, forward and backward -/
theorem C36_advance {X W Y : List (Elem V)} :
    Triple nf (isTree a h g (X ++ W ++ Y) ∗ F) (do
        let p ← iterAdvance (firstN (W ++ Y) h) (W.length : Int)
        let q ← iterAdvance p (-(W.length : Int))
        pure (p, q))
      (fun r => ⌜r = (firstN Y h, firstN (W ++ Y) h)⌝ ∗ isTree a h g (X ++ W ++ Y) ∗ F) := by
  have h1 : ∀ a : Addr, iterAdvance (V := V) a (W.length : Int) = advanceFwd a W.length := fun _ => rfl
  have h2 : ∀ a : Addr, iterAdvance (V := V) a (-(W.length : Int)) = advanceBwd a W.length := by
    intro a
    cases h : W.length with
    | zero => rfl
    | succ n => rw [show (-((n + 1 : Nat) : Int)) = Int.negSucc n from rfl]; rfl
  simp only [h1, h2]
  refine Triple.bind advanceFwd_spec fun p => ?_
  apply Triple.pure_left
  rintro rfl
  refine Triple.bind advanceBwd_spec fun p => ?_
  apply Triple.pure_left
  rintro rfl
  exact Triple.ret (ent_pure_right rfl (ent_refl _))

/-- a reverse iterator: incrementing goes one element towards the front (the element it then designates is the one before), and decrementing goes back again -/
theorem C36_reverse {X Y : List (Elem V)} {e : Elem V} :
    Triple nf (isTree a h g (X ++ e :: Y) ∗ F) (do
        let r ← revDereference (firstN Y h)
        let p ← revIncrement (firstN Y h)
        let q ← revDecrement p
        pure (r, p, q))
      (fun r => ⌜r = ((e.box, 1), firstN (e :: Y) h, firstN Y h)⌝ ∗ isTree a h g (X ++ e :: Y) ∗ F) := by
  refine with_tree fun t h1 h2 h3 => ?_
  have hl : t.toList = (X ++ [e]) ++ Y := by rw [h1]; simp
  simp only [revDereference, revIncrement, revDecrement, bind_assoc, pure_bind]
  refine decrement_pos hl h2 (by simp) ?_
  rw [lastN_snoc]
  refine ldN_reads (rd_box h1) ?_
  refine decrement_pos hl h2 (by simp) ?_
  rw [lastN_snoc]
  refine increment_cps h1 ?_
  exact Triple.ret (ent_pure_right rfl (sep_mono (shape_tree h1 h2 h3) (ent_refl F)))

/-! ## C37 hints -/

/-- insert_unique with any hint (any position `Y` of the container) does what insert_unique without hint does: nothing if the key is present, else one new
element between the smaller and the greater keys. -/
theorem C37_insert_unique_present {X Y : List (Elem V)} {value : Loc} {v : V} {x : Elem V} (hw : StrictWeak (klt E g)) (hs : KSorted E g (X ++ Y)) (hv0 : value.1 ≠ 0)
    (hv : Reads (isTree a h g (X ++ Y) ∗ F) value v) (hx : x ∈ X ++ Y) (hk : keq E g (E.kov g.kov v) x = true) :
    Triple True (isTree a h g (X ++ Y) ∗ F) (insertUnique E a (firstN Y h) value)
      (fun r => ⌜∃ y ∈ X ++ Y, keq E g (E.kov g.kov v) y = true ∧ r = y.node⌝ ∗ isTree a h g (X ++ Y) ∗ F) := by
  refine Triple.post (insertUnique_spec hw hs hv0 hv) fun r => ?_
  refine ent_ex_left fun es' => ent_pure_left fun hu => ?_
  rcases hu with ⟨rfl, h1⟩ | ⟨h1, _⟩
  · exact ent_pure_right h1 (ent_refl _)
  · rw [h1 x hx] at hk; cases hk

theorem C37_insert_unique_absent {X Y : List (Elem V)} {value : Loc} {v : V} (hw : StrictWeak (klt E g)) (hs : KSorted E g (X ++ Y)) (hv0 : value.1 ≠ 0)
    (hv : Reads (isTree a h g (X ++ Y) ∗ F) value v) (hn : ∀ x ∈ X ++ Y, keq E g (E.kov g.kov v) x = false) :
    Triple True (isTree a h g (X ++ Y) ∗ F) (insertUnique E a (firstN Y h) value)
      (fun r => ∃ₛ X' e Y', ⌜X ++ Y = X' ++ Y' ∧ r = e.node ∧ e.val = v ∧ (∀ x ∈ X', klt E g (ek E g x) (ek E g e) = true) ∧ (∀ y ∈ Y', klt E g (ek E g e) (ek E g y) = true)⌝ ∗
        isTree a h g (X' ++ e :: Y') ∗ F) := by
  refine Triple.post (insertUnique_spec hw hs hv0 hv) fun r => ?_
  refine ent_ex_left fun es' => ent_pure_left fun hu => ?_
  rcases hu with ⟨rfl, x, hx, hk, _⟩ | ⟨_, e, he, hr, rfl⟩
  · rw [hn x hx] at hk; cases hk
  · apply ent_ex_right ((X ++ Y).filter (fun x => !klt E g (E.kov g.kov v) (ek E g x)))
    apply ent_ex_right e
    apply ent_ex_right ((X ++ Y).filter (fun x => klt E g (E.kov g.kov v) (ek E g x)))
    refine ent_pure_right ⟨insAfter_split hw hs v, hr, he, fun x hx => ?_, fun y hy => ?_⟩ (ent_refl _)
    · have hx' := List.mem_filter.1 hx
      have h1 := hn x hx'.1
      simp only [keq, equivB] at h1
      have h2 : klt E g (E.kov g.kov v) (ek E g x) = false := by simpa using hx'.2
      rw [h2] at h1
      simpa [ek, he] using h1
    · simpa [ek, he] using (List.mem_filter.1 hy).2

/-- insert_equal with any hint adds exactly one element at a place where the order is kept; and right at the hint if the key fits there. -/
theorem C37_insert_equal {X Y : List (Elem V)} {value : Loc} {v : V} (hw : StrictWeak (klt E g)) (hs : KSorted E g (X ++ Y)) (hv0 : value.1 ≠ 0)
    (hv : Reads (isTree a h g (X ++ Y) ∗ F) value v) :
    Triple True (isTree a h g (X ++ Y) ∗ F) (insertEqual E a (firstN Y h) value)
      (fun r => ∃ₛ X' e Y', ⌜X ++ Y = X' ++ Y' ∧ r = e.node ∧ e.val = v ∧ KSorted E g (X' ++ e :: Y') ∧
          ((∀ x ∈ X, klt E g (ek E g e) (ek E g x) = false) → (∀ y ∈ Y, klt E g (ek E g y) (ek E g e) = false) → X' = X ∧ Y' = Y)⌝ ∗
        isTree a h g (X' ++ e :: Y') ∗ F) := by
  refine Triple.post (insertEqual_spec hw hs hv0 hv) fun r => ?_
  refine ent_ex_left fun e => ent_pure_left fun hu => ?_
  have hsrt := hintIns_sorted hw hs hu.2
  cases hf : fits E g v X Y
  · obtain ⟨X', Y', e1, e2⟩ := hintIns_perm (e := e) (v := v) hw hs
    apply ent_ex_right X'
    apply ent_ex_right e
    apply ent_ex_right Y'
    rw [e2] at hsrt ⊢
    refine ent_pure_right ⟨e1, hu.1, hu.2, hsrt, fun f1 f2 => ?_⟩ (ent_refl _)
    have := fits_iff (E := E) (g := g) (v := v) (X := X) (Y := Y)
    rw [this.2 ⟨by simpa [ek, hu.2] using f1, by simpa [ek, hu.2] using f2⟩] at hf
    cases hf
  · apply ent_ex_right X
    apply ent_ex_right e
    apply ent_ex_right Y
    have hh : hintIns E g v X Y e = X ++ e :: Y := by simp only [hintIns, hf, ↓reduceIte]
    rw [hh] at hsrt ⊢
    exact ent_pure_right ⟨rfl, hu.1, hu.2, hsrt, fun _ _ => ⟨rfl, rfl⟩⟩ (ent_refl _)

/-! ## C38 stable addresses -/

/-- operations that do not remove elements -/
def Op.keeps : Op → Bool
  | .insertUnique _ | .insertUniqueHint _ _ | .insertEqual _ | .insertEqualHint _ _ => true
  | _ => false

theorem step_sub {op : Op} {es' : List (Elem V)} (hw : StrictWeak (klt E g)) (hs : KSorted E g es) (hst : Step E g ρ es es' op) (hv : Valid R ρ es.length op) :
    if op.keeps then es.Sublist es' else es'.Sublist es := by
  have uni : ∀ {v : V} {r : Nat}, UniqueIns E g v es r es' → es.Sublist es' := by
    intro v r hu
    rcases hu with ⟨rfl, _⟩ | ⟨_, e, _, _, rfl⟩
    · exact List.Sublist.refl _
    · obtain ⟨X, Y, e1, e2⟩ := insAfter_perm (e := e) (v := v) hw hs
      rw [e2, e1]
      exact List.Sublist.append (List.Sublist.refl _) (List.sublist_cons_self _ _)
  cases op with
  | insertUnique x => obtain ⟨v, r, _, h⟩ := hst; exact uni h
  | insertUniqueHint i x => obtain ⟨v, r, _, h⟩ := hst; exact uni h
  | insertEqual x =>
    obtain ⟨v, e, _, _, rfl⟩ := hst
    obtain ⟨X, Y, e1, e2⟩ := insAfter_perm (e := e) (v := v) hw hs
    show es.Sublist (insAfter E g v es e)
    rw [e2, e1]
    exact List.Sublist.append (List.Sublist.refl _) (List.sublist_cons_self _ _)
  | insertEqualHint i x =>
    obtain ⟨v, e, _, _, rfl⟩ := hst
    have hi : es.take i ++ es.drop i = es := List.take_append_drop i es
    obtain ⟨X, Y, e1, e2⟩ := hintIns_perm (X := es.take i) (Y := es.drop i) (e := e) (v := v) hw (hi.symm ▸ hs)
    show es.Sublist (hintIns E g v (es.take i) (es.drop i) e)
    rw [hi] at e1
    rw [e2]
    conv => lhs; rw [e1]
    exact List.Sublist.append (List.Sublist.refl _) (List.sublist_cons_self _ _)
  | erase i => cases hst; exact List.eraseIdx_sublist _ _
  | eraseRange i j =>
    cases hst
    show (es.take i ++ es.drop j).Sublist es
    have : es = es.take i ++ es.drop i := by simp
    conv => rhs; rw [this]
    refine List.Sublist.append (List.Sublist.refl _) ?_
    have h1 : i ≤ j := hv.1
    rw [show j = i + (j - i) by omega, ← List.drop_drop]
    exact List.drop_sublist _ _
  | eraseKey x => obtain ⟨v, _, rfl⟩ := hst; exact List.filter_sublist
  | clear => cases hst; exact List.nil_sublist _

/-- where an element of the container is in memory -/
theorem cells_of_tree {e : Elem V} {m : Heap V} (hm : (isTree a h g es ∗ F) m) (he : e ∈ es) :
    m (e.node, 5) = some (.num e.box) ∧ m (e.box, 1) = some (.obj (some e.val)) := by
  unfold isTree at hm
  rw [hex_sep] at hm
  obtain ⟨t, hm⟩ := hm
  rw [sep_assoc, hpure_sep_apply] at hm
  obtain ⟨⟨h1, _, _⟩, hm⟩ := hm
  obtain ⟨X, Y, rfl⟩ := List.append_of_mem he
  exact ⟨rd_box h1 m hm, rd_val h1 m hm⟩

/-- After every history of insertions, every old element is still at its address with its value: the node still points to the same storage, and
the storage still holds the value.  Rebalancing only relinks nodes. -/
theorem C38_stable {ops : List Op} (hw : StrictWeak (klt E g)) (hs : KSorted E g es) (hk : ∀ op ∈ ops, Op.keeps op = true)
    (hv : ValidOps E g R ρ ops es) {m : Mem V} (ho : ∀ t, m.orc t ≠ 0) (hm : (isTree a h g es ∗ R) m.cells) :
    ∃ m' : Mem V, runOps E a ops m = some (.ok ((), m')) ∧
      ∀ e ∈ es, m'.cells (e.node, 5) = some (.num e.box) ∧ m'.cells (e.box, 1) = some (.obj (some e.val)) := by
  obtain ⟨_, m', h1, _, h2⟩ := (runOps_spec hw hs hv).run (F := emp) (s := m) (fun _ => ho) (by rw [sep_emp]; exact hm)
  rw [sep_emp] at h2
  obtain ⟨es', h2⟩ := h2
  rw [hpure_sep_apply] at h2
  obtain ⟨⟨h2, h2s⟩, h3⟩ := h2
  refine ⟨m', h1, ?_⟩
  have hmem : es.Sublist es' := by
    clear h3 hm h1 h2s
    induction h2 with
    | nil => exact List.Sublist.refl _
    | @cons op ops xs ys zs hst hrun ih =>
      have h5 := step_sub hw hs hst hv.1
      rw [if_pos (hk op (by simp))] at h5
      exact h5.trans (ih (hst.sorted hw hs hv.1) (fun op ho => hk op (by simp [ho])) (hv.2 _ hst))
  intro e he
  exact cells_of_tree h3 (hmem.subset he)

/-- Erasing only drops elements: the survivors are the same elements at the same addresses, in the same order. -/
theorem C38_survivors {X Y : List (Elem V)} {e x : Elem V} {m : Mem V} (hm : (isTree a h g (X ++ e :: Y) ∗ F) m.cells) (hx : x ∈ X ++ Y) :
    ∃ r m', erase a e.node m = some (.ok (r, m')) ∧ m'.cells (x.node, 5) = some (.num x.box) ∧ m'.cells (x.box, 1) = some (.obj (some x.val)) := by
  obtain ⟨r, m', h1, _, h2⟩ := (erase_spec (nf := False) (F := F)).run (F := emp) (s := m) (fun h => absurd h id) (by rw [sep_emp]; exact hm)
  rw [sep_emp, hpure_sep_apply] at h2
  exact ⟨r, m', h1, cells_of_tree h2.2 hx⟩

/-! ## C39 destroy -/

/-- create returns NULL and allocates nothing, or returns a fresh empty container -/
theorem C39_create (hg : g.kt ≠ 0 ∧ g.vt ≠ 0 ∧ g.kov ≠ 0 ∧ g.cmp ≠ 0) :
    Triple (V := V) nf emp (create g.kt g.vt g.mt g.kov g.cmp)
      (fun r => ⌜r = 0 → ¬ nf⌝ ∗ if r = 0 then emp else ∃ₛ h, isTree r h g []) := by
  rw [← bind_pure (create _ _ _ _ _)]
  apply create_spec hg
  · intro hn
    apply Triple.ret
    rw [if_pos rfl]
    exact ent_pure_right (fun _ => hn) (ent_refl _)
  · intro a h ha
    apply Triple.ret
    rw [if_neg ha, sep_emp]
    refine ent_pure_right (fun h => absurd h ha) ?_
    exact ent_ex_right h (ent_refl _)

/-- The part of C39 that holds: clear releases every element (only the object, the header node and the caller's memory remain) and destroy releases every element and the
tree object.  Missing: the header node is never released, see the next theorem. -/
theorem C39_destroy_partial : Triple nf (isTree a h g es ∗ F) (destroy a) (fun _ => (∃ₛ h', blk h' 5 ∗ fld h' 1 0 ∗ fld h' 2 0 ∗ fld h' 3 h' ∗ fld h' 4 h' ∗ fld h' 5 0) ∗ F) := by
  refine Triple.post destroy_spec fun _ => ?_
  refine sep_mono ?_ (ent_refl F)
  exact ent_ex_right h (ent_refl _)

/-- C39 is violated: whatever the container holds, after destroy the header node, allocated by create, is still allocated, and nothing points to it. -/
theorem C39_destroy_violated {m : Mem V} (hm : (isTree a h g es ∗ F) m.cells) :
    ∃ m' : Mem V, destroy a m = some (.ok ((), m')) ∧ m'.cells (h, 0) = some (.sz 5) ∧ (leaked h ∗ F) m'.cells := by
  obtain ⟨r, m', h1, _, h2⟩ := (destroy_spec (nf := False) (F := F)).run (F := emp) (s := m) (fun h => absurd h id) (by rw [sep_emp]; exact hm)
  rw [sep_emp] at h2
  refine ⟨m', h1, ?_, h2⟩
  exact cell_of h2 (R := _) (by unfold leaked; cancel)

/-- creating and destroying a container leaves the memory different from before -/
theorem C39_lifecycle_violated (hg : g.kt ≠ 0 ∧ g.vt ≠ 0 ∧ g.kov ≠ 0 ∧ g.cmp ≠ 0) (m : Mem V) (ho : ∀ t, m.orc t ≠ 0) :
    ∃ m' : Mem V, (do
        let a ← create g.kt g.vt g.mt g.kov g.cmp
        destroy a : M V Unit) m = some (.ok ((), m')) ∧ m'.cells ≠ m.cells := by
  have ht : Triple True (exactly m.cells) (do
        let a ← create g.kt g.vt g.mt g.kov g.cmp
        destroy a) (fun _ => ∃ₛ h, leaked h ∗ exactly m.cells) := by
    refine create_spec hg (fun h => absurd trivial h) fun a h ha => ?_
    exact Triple.post destroy_spec fun _ => ent_ex_right h (ent_refl _)
  obtain ⟨_, m', h1, _, h2⟩ := ht.run (F := emp) (s := m) (fun _ => ho) (by rw [sep_emp]; exact (rfl : m.cells = m.cells))
  rw [sep_emp] at h2
  obtain ⟨h, h2⟩ := h2
  refine ⟨m', h1, fun heq => ?_⟩
  have h3 : m'.cells (h, 0) = some (.sz 5) := cell_of h2 (R := _) (by unfold leaked; cancel)
  obtain ⟨x, y, hd, hu, hx, hy⟩ := h2
  have hx0 : x (h, 0) = some (.sz 5) := cell_of hx (R := _) (by unfold leaked; cancel)
  have hy0 : y = m.cells := hy
  rcases hd (h, 0) with h4 | h4
  · rw [h4] at hx0; cases hx0
  · rw [hy0, ← heq, h3] at h4; cases h4

end CC.Tree
