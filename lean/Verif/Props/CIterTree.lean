import Verif.Props.CIterAll
import Verif.Props.CIterModify
import Verif.Props.CTree
import Verif.IAlgo.TreeView
/-!
# Property C74: the generic algorithms on sets and maps

Programs of a client that has a set, multiset, map or multimap (in memory, a red-black tree with the elements `es` in the order of their keys: `isTree a h g es`), stores `begin` and `end` (or `rbegin` and
`rend`) in iterator structs `x` and `y`, and calls an algorithm of the library.
-/
namespace CC.IAlgo
open CC CC.Tac CC.Iter CC.Algo
open CC.CList (Elem vals)
open CC.Tree (isTree klt ek KSorted)
variable {V α : Type} {Z : Nat → Nat} {S2 F : HProp V} {r2 : Src V} {C2 : List V → HProp V} {E : Tree.Env V} {g : Tree.Cfg} {a h a2 h2 x y x2 y2 x3 y3 : Nat} {es fs : List (Elem V)} {us : List V} {low : Nat → Nat} {value key q : Loc} {w : V}

theorem setVals_vals {es : List (Elem V)} : setVals es (vals es) = es := by
  induction es with
  | nil => rfl
  | cons e es ih =>
    rw [vals, List.map_cons, setVals, List.zipWith_cons_cons]
    exact congrArg _ ih

theorem tree_parts : isTree a h g es = (seg (boxAt es) 0 (vals es) ∗ treeS a h g es) := by
  rw [← tree_seg (by simp [vals]), setVals_vals]

/-- elements compared by their keys -/
def vlt (E : Tree.Env V) (g : Tree.Cfg) (u v : V) : Bool := klt E g (E.kov g.kov u) (E.kov g.kov v)

theorem vlt_weak (hw : StrictWeak (klt E g)) : StrictWeak (vlt E g) where
  irrefl := fun _ => hw.irrefl _
  trans := fun _ _ _ h1 h2 => hw.trans _ _ _ h1 h2
  incomp_trans := fun _ _ _ h1 h2 => hw.incomp_trans _ _ _ h1 h2

theorem len_le_of_cls {lt : V → V → Bool} (hw : StrictWeak lt) (n : Nat) : ∀ (zs ws : List V), zs.length ≤ n → (∀ b, (cls lt b zs).length ≤ (cls lt b ws).length) → zs.length ≤ ws.length := by
  induction n with
  | zero => intro zs ws hn _; omega
  | succ n ih =>
    intro zs ws hn hc
    cases zs with
    | nil => simp
    | cons z zs =>
      have split : ∀ l : List V, l.length = (l.filter (equivB lt z)).length + (l.filter fun b => !equivB lt z b).length := by
        intro l
        induction l with
        | nil => rfl
        | cons b l ih =>
          simp only [List.filter_cons, List.length_cons]
          cases equivB lt z b <;> simp <;> omega
      have hz : equivB lt z z = true := by simp [equivB, hw.irrefl]
      have h1 := hc z
      have h2 := ih ((z :: zs).filter fun b => !equivB lt z b) (ws.filter fun b => !equivB lt z b) ?_ ?_
      · have e1 := split (z :: zs)
        have e2 := split ws
        unfold cls at h1
        omega
      · simp only [List.filter_cons, hz, Bool.not_true, Bool.false_eq_true, ↓reduceIte]
        have := List.length_filter_le (fun b => !equivB lt z b) zs
        simp only [List.length_cons] at hn
        omega
      · intro b
        unfold cls at hc ⊢
        rw [List.filter_filter, List.filter_filter]
        cases hb : equivB lt z b with
        | true =>
          have : ∀ l : List V, l.filter (fun c => equivB lt b c && !equivB lt z c) = [] := by
            intro l
            rw [List.filter_eq_nil_iff]
            intro c _
            simp only [Bool.and_eq_true, Bool.not_eq_true', not_and, Bool.not_eq_false]
            intro h
            simp only [equivB, Bool.and_eq_true, Bool.not_eq_true'] at hb h ⊢
            exact hw.incomp_trans _ _ _ hb h
          rw [this, this]
          exact Nat.le_refl _
        | false =>
          have : ∀ l : List V, l.filter (fun c => equivB lt b c && !equivB lt z c) = l.filter (equivB lt b) := by
            intro l
            refine List.filter_congr fun c _ => ?_
            cases h : equivB lt b c with
            | false => rfl
            | true =>
              cases h' : equivB lt z c with
              | false => rfl
              | true =>
                simp only [equivB, Bool.and_eq_true, Bool.not_eq_true'] at h h'
                have := hw.incomp_trans _ _ _ h' ⟨h.2, h.1⟩
                simp [equivB, this.1, this.2] at hb
          rw [this, this]
          exact hc b

theorem cls_append {lt : V → V → Bool} {b : V} {xs ys : List V} : cls lt b (xs ++ ys) = cls lt b xs ++ cls lt b ys := List.filter_append ..

theorem vlt_sorted (hs : KSorted E g es) : Sorted (vlt E g) (vals es) := by
  rw [Tree.KSorted.iff] at hs
  unfold Sorted vals
  rw [List.pairwise_map]
  exact hs

/-! ## searching -/

/-- `algo_find_if` over a whole set or map: the first element in key order, or `end` -/
theorem C74_find_if (pred : V → Bool) (hty : g.vt ≠ 0) :
    Triple True (isTree a h g es ∗ rawIt x ∗ rawIt y ∗ pts q (.num 0)) (whole (treeSrc a h g es) x y (IAlgo.findIf x y (.var q) pred))
      (fun r => ∃ₛ k p, ⌜FoundFirst (Algo.At (vals es) fun v => pred v = true) es.length 0 (r.1, k) ∧ p ≠ 0⌝ ∗
        isTree a h g es ∗ It (treeSrc a h g es) x 0 ∗ It (treeSrc a h g es) y es.length ∗ pts q (.num p) ∗ It (treeSrc a h g es) p k) := by
  have := C62_find_if_whole (Z := fun _ => 1) (x := x) (y := y) (q := q) (vs := vals es) pred (tree_view (a := a) (h := h) (es := es) hty) (by show _ = es.length; simp [vals])
  rw [setVals_vals, show (vals es).length = es.length by simp [vals]] at this
  exact this

/-- the same over `rbegin`, `rend`: the first element in the reverse order -/
theorem C74_find_if_reverse (pred : V → Bool) (hty : g.vt ≠ 0) :
    Triple True (isTree a h g es ∗ rawIt x ∗ rawIt y ∗ pts q (.num 0)) (whole (treeSrcR a h g es) x y (IAlgo.findIf x y (.var q) pred))
      (fun r => ∃ₛ k p, ⌜FoundFirst (Algo.At (vals es).reverse fun v => pred v = true) es.length 0 (r.1, k) ∧ p ≠ 0⌝ ∗
        isTree a h g es ∗ It (treeSrcR a h g es) x 0 ∗ It (treeSrcR a h g es) y es.length ∗ pts q (.num p) ∗ It (treeSrcR a h g es) p k) := by
  have := C62_find_if_whole (Z := fun _ => 1) (x := x) (y := y) (q := q) (vs := (vals es).reverse) pred (treeR_view (a := a) (h := h) (es := es) hty) (by show _ = es.length; simp [vals])
  rw [List.reverse_reverse, setVals_vals, show (vals es).reverse.length = es.length by simp [vals]] at this
  exact this

/-- `algo_count_if` over a whole set or map -/
theorem C74_count_if (pred : V → Bool) (hty : g.vt ≠ 0) :
    Triple True (isTree a h g es ∗ rawIt x ∗ rawIt y) (whole (treeSrc a h g es) x y (IAlgo.countIf x y pred))
      (fun n => ⌜n = ((vals es).filter pred).length⌝ ∗ isTree a h g es ∗ It (treeSrc a h g es) x 0 ∗ It (treeSrc a h g es) y es.length) := by
  rw [tree_parts]
  have hv := tree_view (Z := fun _ => 1) (a := a) (h := h) (es := es) hty
  refine Triple.pre (P' := rawIt x ∗ rawIt y ∗ treeS a h g es ∗ seg (boxAt es) 0 (vals es)) (by cancel) ?_
  refine whole_spec hv.ok ?_
  refine Triple.pre (P' := seg (boxAt es) 0 (vals es) ∗ (It (treeSrc a h g es) x 0 ∗ It (treeSrc a h g es) y es.length ∗ emp) ∗ treeS a h g es) (by cancel) ?_
  refine Triple.post (C62_count_if pred (spans_whole hv.ok (by show _ = es.length; simp [vals])) seg_rng) fun n => ?_
  cancel

/-- `algo_lower_bound_by` over a whole set or map, with the order of the keys, and the own `lower_bound` of the container, agree: the algorithm's iterator is at the element the container's function
returns (or both are `end`).  `value` is an element, `key` its key. -/
theorem C74_lower_bound_agrees (hty : g.vt ≠ 0) (hw : StrictWeak (klt E g)) (hs : KSorted E g es) (hv0 : value.1 ≠ 0) (hv : Reads F value w) (hk0 : key.1 ≠ 0) (hk : Reads F key (E.kov g.kov w)) :
    Triple True (isTree a h g es ∗ rawIt x ∗ rawIt y ∗ pts q (.num 0) ∗ F)
      (whole (treeSrc a h g es) x y (do let _ ← IAlgo.lowerBound Z x y value (.var q) (vlt E g); Tree.lowerBound E a key))
      (fun n => ∃ₛ k p, ⌜k ≤ es.length ∧ n = nodeAt es h k ∧ SplitAt (fun e => klt E g (ek E g e) (E.kov g.kov w)) es k ∧ p ≠ 0⌝ ∗
        isTree a h g es ∗ It (treeSrc a h g es) x 0 ∗ It (treeSrc a h g es) y es.length ∗ pts q (.num p) ∗ It (treeSrc a h g es) p k ∗ F) := by
  have hlen : (vals es).length = es.length := by simp [vals]
  rw [tree_parts]
  have hvw := tree_view (Z := Z) (a := a) (h := h) (es := es) hty
  refine Triple.pre (P' := rawIt x ∗ rawIt y ∗ treeS a h g es ∗ (seg (boxAt es) 0 (vals es) ∗ pts q (.num 0) ∗ F)) (by cancel) ?_
  refine whole_spec hvw.ok ?_
  refine Triple.fact (p := q.1 ≠ 0) (fun m hh => pts_ne_zero (R := _) ((show _ ⊢ₛ pts q (.num 0) ∗ _ by cancel) m hh)) fun hq => ?_
  refine Triple.pre (P' := (seg (boxAt es) 0 (vals es) ∗ F) ∗ (pts q (.num 0) ∗ (It (treeSrc a h g es) x 0 ∗ It (treeSrc a h g es) y es.length ∗ emp)) ∗ treeS a h g es) (by cancel) ?_
  refine Triple.bind (C62_lower_bound (vlt E g) (spans_whole hvw.ok (by show _ = es.length; simp [vals])) seg_rng.left hv0 hv.right (sorted_parted (vlt_weak hw) (vlt_sorted hs)).1 (.fresh hq)) fun _ => ?_
  apply Triple.ex_left; intro e
  apply Triple.pure_left; rintro ⟨k, rfl, hk1, hk2, hk3⟩
  rw [hlen] at hk1
  rw [Nat.zero_add]
  refine Triple.pre (P' := ∃ₛ p, ⌜p ≠ 0⌝ ∗ isTree a h g es ∗ (F ∗ pts q (.num p) ∗ It (treeSrc a h g es) p k ∗ It (treeSrc a h g es) x 0 ∗ It (treeSrc a h g es) y es.length)) ?_ ?_
  · rintro m hm
    rw [sep_left_comm, hex_sep] at hm
    obtain ⟨p, hm⟩ := hm
    rw [sep_assoc, hpure_sep_apply] at hm
    refine ⟨p, hpure_sep_apply.2 ⟨hm.1, ?_⟩⟩
    rw [tree_parts]
    exact (show _ ⊢ₛ _ by cancel) m hm.2
  apply Triple.ex_left; intro p
  apply Triple.pure_left; intro hp
  refine Triple.post (Tree.C34_lower_bound hw hs hk0 (hk.left.right)) fun n => ?_
  refine ent_pure_left fun ⟨X, Y, h1, h2, h3, h4⟩ => ?_
  have hkX : k = X.length := by
    subst h1
    rcases Nat.lt_trichotomy k X.length with hlt | he | hgt
    · exfalso
      have hin : X[k] ∈ X := List.getElem_mem _
      have : (X[k]).val ∈ (vals (X ++ Y)).drop k := by
        rw [vals, List.map_append, List.drop_append_of_le_length (by simp; omega), ← List.map_drop, List.drop_eq_getElem_cons hlt, List.map_cons, List.cons_append]
        exact List.mem_cons_self ..
      have h5 := hk3 _ this
      have h6 := h3 _ hin
      exact absurd (h5.symm.trans h6) (by simp)
    · exact he
    · exfalso
      rw [List.length_append] at hk1
      have hY : 0 < Y.length := by omega
      have hin : Y[0] ∈ Y := List.getElem_mem _
      have : (Y[0]).val ∈ (vals (X ++ Y)).take k := by
        rw [vals, List.map_append, List.take_append, List.mem_append]
        right
        rw [← List.map_take, List.length_map]
        refine List.mem_map.2 ⟨_, ?_, rfl⟩
        rw [List.mem_take_iff_getElem]
        exact ⟨0, by omega, rfl⟩
      have h5 := hk2 _ this
      have h6 := h4 _ hin
      exact absurd (h5.symm.trans h6) (by simp)
  refine ent_ex_right k (ent_ex_right p (ent_pure_right ⟨hk1, ?_, ?_, hp⟩ ?_))
  · rw [h2, nodeAt, hkX, h1, List.drop_left]
  · subst hkX h1
    refine ⟨by simp, ?_, ?_⟩
    · rw [List.take_left]; exact h3
    · rw [List.drop_left]; exact h4
  · rw [← tree_parts]; cancel

/-- `algo_binary_search_by` over a whole set or map finds out whether there is an element with an equivalent key -/
theorem C74_binary_search (hty : g.vt ≠ 0) (hw : StrictWeak (klt E g)) (hs : KSorted E g es) (hv0 : value.1 ≠ 0) (hv : Reads F value w) :
    Triple True (isTree a h g es ∗ rawIt x ∗ rawIt y ∗ F) (whole (treeSrc a h g es) x y (IAlgo.binarySearch Z x y value (vlt E g)))
      (fun b => ⌜b = true ↔ ∃ e ∈ es, klt E g (ek E g e) (E.kov g.kov w) = false ∧ klt E g (E.kov g.kov w) (ek E g e) = false⌝ ∗
        isTree a h g es ∗ It (treeSrc a h g es) x 0 ∗ It (treeSrc a h g es) y es.length ∗ F) := by
  rw [tree_parts]
  have hvw := tree_view (Z := Z) (a := a) (h := h) (es := es) hty
  refine Triple.pre (P' := rawIt x ∗ rawIt y ∗ treeS a h g es ∗ (seg (boxAt es) 0 (vals es) ∗ F)) (by cancel) ?_
  refine whole_spec hvw.ok ?_
  refine Triple.pre (P' := (seg (boxAt es) 0 (vals es) ∗ F) ∗ (It (treeSrc a h g es) x 0 ∗ It (treeSrc a h g es) y es.length ∗ emp) ∗ treeS a h g es) (by cancel) ?_
  have hp := sorted_parted (w := w) (vlt_weak hw) (vlt_sorted hs)
  refine Triple.post (C62_binary_search (vlt E g) (spans_whole hvw.ok (by show _ = es.length; simp [vals])) seg_rng.left hv0 hv.right hp.1 hp.2) fun b => ?_
  refine ent_pure_left fun hb => ent_pure_right (hb.trans ?_) (by cancel)
  simp only [vals, List.mem_map]
  constructor
  · rintro ⟨_, ⟨e, he, rfl⟩, h1, h2⟩
    exact ⟨e, he, h1, h2⟩
  · rintro ⟨e, he, h1, h2⟩
    exact ⟨_, ⟨e, he, rfl⟩, h1, h2⟩

/-! ## copying out of sets and maps -/

/-- copying a whole set or map over (the beginning of) a list, forward list, vector or deque (`C2`): the elements in key order -/
theorem C74_copy (hty : g.vt ≠ 0) (hc2 : View Z C2 r2 S2) (hm : r2.kind.type < 7) (hl2 : us.length = r2.len) (hle : es.length ≤ us.length) (hlow : ∀ q, q ≠ 0 → 2 ≤ low q) :
    Triple True (isTree a h g es ∗ C2 us ∗ rawIt x ∗ rawIt y ∗ rawIt x2 ∗ rawIt y2) (whole (treeSrc a h g es) x y (whole r2 x2 y2 (IAlgo.copy low x y x2 (.var (0, 0)))))
      (fun q => ⌜q.1 = es.length⌝ ∗ isTree a h g es ∗ C2 (vals es ++ us.drop es.length) ∗ It (treeSrc a h g es) x 0 ∗ It (treeSrc a h g es) y es.length ∗ It r2 x2 0 ∗ It r2 y2 r2.len) := by
  have hlen : (vals es).length = es.length := by simp [vals]
  have := C63_copy_whole (x := x) (y := y) (x2 := x2) (y2 := y2) (vs := vals es) (tree_view (Z := Z) (a := a) (h := h) (es := es) hty) hc2 hm hlen hl2 (by omega) hlow
  rw [setVals_vals, hlen] at this
  exact this

/-- copying with reverse iterators: the elements in the reverse order -/
theorem C74_copy_reverse (hty : g.vt ≠ 0) (hc2 : View Z C2 r2 S2) (hm : r2.kind.type < 7) (hl2 : us.length = r2.len) (hle : es.length ≤ us.length) (hlow : ∀ q, q ≠ 0 → 2 ≤ low q) :
    Triple True (isTree a h g es ∗ C2 us ∗ rawIt x ∗ rawIt y ∗ rawIt x2 ∗ rawIt y2) (whole (treeSrcR a h g es) x y (whole r2 x2 y2 (IAlgo.copy low x y x2 (.var (0, 0)))))
      (fun q => ⌜q.1 = es.length⌝ ∗ isTree a h g es ∗ C2 ((vals es).reverse ++ us.drop es.length) ∗ It (treeSrcR a h g es) x 0 ∗ It (treeSrcR a h g es) y es.length ∗ It r2 x2 0 ∗ It r2 y2 r2.len) := by
  have hlen : (vals es).reverse.length = es.length := by simp [vals]
  have := C63_copy_whole (x := x) (y := y) (x2 := x2) (y2 := y2) (vs := (vals es).reverse) (treeR_view (Z := Z) (a := a) (h := h) (es := es) hty) hc2 hm hlen hl2 (by omega) hlow
  rw [List.reverse_reverse, setVals_vals, hlen] at this
  exact this

/-! ## two sets or maps -/

/-- what a client has prepared to combine two sets or maps into a third container: all the iterators -/
theorem two_spec {m : M V α} {Q : α → HProp V} {S1 S3 : HProp V} {r1 r3 : Src V} (h1 : r1.Ok True Z S1) (h2' : r2.Ok True Z S2) (h3 : r3.Ok True Z S3)
    (hk : Triple True ((It r1 x 0 ∗ It r1 y r1.len ∗ It r2 x2 0 ∗ It r2 y2 r2.len ∗ It r3 x3 0 ∗ It r3 y3 r3.len) ∗ (S1 ∗ S2 ∗ S3) ∗ F) m Q) :
    Triple True ((rawIt x ∗ rawIt y ∗ rawIt x2 ∗ rawIt y2 ∗ rawIt x3 ∗ rawIt y3) ∗ (S1 ∗ S2 ∗ S3) ∗ F) (whole r1 x y (whole r2 x2 y2 (whole r3 x3 y3 m))) Q := by
  refine Triple.pre (P' := rawIt x ∗ rawIt y ∗ S1 ∗ (rawIt x2 ∗ rawIt y2 ∗ rawIt x3 ∗ rawIt y3 ∗ S2 ∗ S3 ∗ F)) (by cancel) ?_
  refine whole_spec h1 ?_
  refine Triple.pre (P' := rawIt x2 ∗ rawIt y2 ∗ S2 ∗ (It r1 x 0 ∗ It r1 y r1.len ∗ rawIt x3 ∗ rawIt y3 ∗ S1 ∗ S3 ∗ F)) (by cancel) ?_
  refine whole_spec h2' ?_
  refine Triple.pre (P' := rawIt x3 ∗ rawIt y3 ∗ S3 ∗ (It r1 x 0 ∗ It r1 y r1.len ∗ It r2 x2 0 ∗ It r2 y2 r2.len ∗ S1 ∗ S2 ∗ F)) (by cancel) ?_
  refine whole_spec h3 ?_
  exact Triple.pre (by cancel) hk

/-- the iterators of the client in such a program -/
def sixIt (r1 r2 r3 : Src V) (x y x2 y2 x3 y3 : Nat) : HProp V := It r1 x 0 ∗ It r1 y r1.len ∗ It r2 x2 0 ∗ It r2 y2 r2.len ∗ It r3 x3 0 ∗ It r3 y3 r3.len
/-- memory for them -/
def sixRaw (x y x2 y2 x3 y3 : Nat) : HProp V := rawIt x ∗ rawIt y ∗ rawIt x2 ∗ rawIt y2 ∗ rawIt x3 ∗ rawIt y3

/-- `algo_merge_by` of two sets or maps into a list, forward list, vector or deque (`C2`) with enough elements -/
theorem C74_merge (hty : g.vt ≠ 0) (hw : StrictWeak (klt E g)) (hs : KSorted E g es) (hs2 : KSorted E g fs) (hc2 : View Z C2 r2 S2) (hm : r2.kind.type < 7) (hl2 : us.length = r2.len)
    (hle : es.length + fs.length ≤ us.length) (hlow : ∀ q, q ≠ 0 → 2 ≤ low q) :
    Triple True (isTree a h g es ∗ isTree a2 h2 g fs ∗ C2 us ∗ sixRaw x y x2 y2 x3 y3)
      (whole (treeSrc a h g es) x y (whole (treeSrc a2 h2 g fs) x2 y2 (whole r2 x3 y3 (IAlgo.merge low x y x2 y2 x3 (.var (0, 0)) (vlt E g)))))
      (fun q => ∃ₛ zs, ⌜zs.Perm (vals es ++ vals fs) ∧ Sorted (vlt E g) zs ∧ StableOf (vlt E g) (vals fs ++ vals es) zs ∧ q.1 = zs.length⌝ ∗ isTree a h g es ∗ isTree a2 h2 g fs ∗ C2 (zs ++ us.drop zs.length) ∗
        sixIt (treeSrc a h g es) (treeSrc a2 h2 g fs) r2 x y x2 y2 x3 y3) := by
  have l1 : (vals es).length = es.length := by simp [vals]
  have l2 : (vals fs).length = fs.length := by simp [vals]
  have v1 := tree_view (Z := Z) (a := a) (h := h) (es := es) hty
  have v2 := tree_view (Z := Z) (a := a2) (h := h2) (es := fs) hty
  have o1 := v1.ok.frame (G := treeS a2 h2 g fs ∗ S2)
  have o2 := v2.ok.frame (G := treeS a h g es ∗ S2)
  have o3 := hc2.ok.frame (G := treeS a h g es ∗ treeS a2 h2 g fs)
  rw [show (treeS a2 h2 g fs ∗ treeS a h g es ∗ S2) = (treeS a h g es ∗ treeS a2 h2 g fs ∗ S2) by ac_rfl] at o2
  rw [show (S2 ∗ treeS a h g es ∗ treeS a2 h2 g fs) = (treeS a h g es ∗ treeS a2 h2 g fs ∗ S2) by ac_rfl] at o3
  rw [tree_parts, tree_parts, hc2.eq us hl2]
  unfold sixRaw
  refine Triple.pre (P' := _ ∗ (treeS a h g es ∗ treeS a2 h2 g fs ∗ S2) ∗ (seg (boxAt es) 0 (vals es) ∗ seg (boxAt fs) 0 (vals fs) ∗ seg r2.ref 0 us)) (by cancel) ?_
  refine two_spec v1.ok v2.ok hc2.ok ?_
  rw [← sixIt]
  refine Triple.pre (P' := (seg (boxAt es) 0 (vals es) ∗ seg (boxAt fs) 0 (vals fs)) ∗ seg r2.ref 0 us ∗ sixIt (treeSrc a h g es) (treeSrc a2 h2 g fs) r2 x y x2 y2 x3 y3 ∗
    (treeS a h g es ∗ treeS a2 h2 g fs ∗ S2)) (by cancel) ?_
  refine Triple.post (C63_merge (r := treeSrc a h g es) (r2 := treeSrc a2 h2 g fs) (r3 := r2) (i := 0) (j := 0) (k := 0) (G := sixIt (treeSrc a h g es) (treeSrc a2 h2 g fs) r2 x y x2 y2 x3 y3) (vlt E g) (vlt_weak hw) ⟨o1, by show _ ≤ es.length; omega, ⟨_, show _ ⊢ₛ It _ x 0 ∗ _ by unfold sixIt; cancel⟩,
      ⟨_, show _ ⊢ₛ It _ y _ ∗ _ by rw [l1, Nat.zero_add]; unfold sixIt; show _ ⊢ₛ It _ y (treeSrc a h g es).len ∗ _; cancel⟩⟩ seg_rng.left
    ⟨o2, by show _ ≤ fs.length; omega, ⟨_, show _ ⊢ₛ It _ x2 0 ∗ _ by unfold sixIt; cancel⟩,
      ⟨_, show _ ⊢ₛ It _ y2 _ ∗ _ by rw [l2, Nat.zero_add]; unfold sixIt; show _ ⊢ₛ It _ y2 (treeSrc a2 h2 g fs).len ∗ _; cancel⟩⟩ seg_rng.right (vlt_sorted hs) (vlt_sorted hs2)
    ⟨o3, by omega, ⟨_, show _ ⊢ₛ It _ x3 0 ∗ _ by unfold sixIt; cancel⟩⟩ hm (by omega) hlow .null) fun q => ?_
  refine ent_ex_left fun zs => ent_pure_left fun hz => ent_ex_right zs (ent_pure_right (by simpa only [and_assoc] using hz) ?_)
  rw [hc2.eq _ ?_]
  · show _ ∗ seg r2.ref 0 (zs ++ us.drop zs.length) ∗ _ ⊢ₛ _
    cancel
  · have : zs.length ≤ us.length := by rw [hz.1.length_eq]; simp; omega
    simp; omega

/-- `algo_set_union_by` of two sets or maps into a list, forward list, vector or deque (`C2`) with enough elements -/
theorem C74_union (hty : g.vt ≠ 0) (hw : StrictWeak (klt E g)) (hs : KSorted E g es) (hs2 : KSorted E g fs) (hc2 : View Z C2 r2 S2) (hm : r2.kind.type < 7) (hl2 : us.length = r2.len)
    (hle : es.length + fs.length ≤ us.length) (hlow : ∀ q, q ≠ 0 → 2 ≤ low q) :
    Triple True (isTree a h g es ∗ isTree a2 h2 g fs ∗ C2 us ∗ sixRaw x y x2 y2 x3 y3)
      (whole (treeSrc a h g es) x y (whole (treeSrc a2 h2 g fs) x2 y2 (whole r2 x3 y3 (IAlgo.setUnion low x y x2 y2 x3 (.var (0, 0)) (vlt E g)))))
      (fun q => ∃ₛ zs, ⌜IsUnion (vlt E g) (vals es) (vals fs) zs ∧ q.1 = zs.length⌝ ∗ isTree a h g es ∗ isTree a2 h2 g fs ∗ C2 (zs ++ us.drop zs.length) ∗
        sixIt (treeSrc a h g es) (treeSrc a2 h2 g fs) r2 x y x2 y2 x3 y3) := by
  have l1 : (vals es).length = es.length := by simp [vals]
  have l2 : (vals fs).length = fs.length := by simp [vals]
  have v1 := tree_view (Z := Z) (a := a) (h := h) (es := es) hty
  have v2 := tree_view (Z := Z) (a := a2) (h := h2) (es := fs) hty
  have o1 := v1.ok.frame (G := treeS a2 h2 g fs ∗ S2)
  have o2 := v2.ok.frame (G := treeS a h g es ∗ S2)
  have o3 := hc2.ok.frame (G := treeS a h g es ∗ treeS a2 h2 g fs)
  rw [show (treeS a2 h2 g fs ∗ treeS a h g es ∗ S2) = (treeS a h g es ∗ treeS a2 h2 g fs ∗ S2) by ac_rfl] at o2
  rw [show (S2 ∗ treeS a h g es ∗ treeS a2 h2 g fs) = (treeS a h g es ∗ treeS a2 h2 g fs ∗ S2) by ac_rfl] at o3
  rw [tree_parts, tree_parts, hc2.eq us hl2]
  unfold sixRaw
  refine Triple.pre (P' := _ ∗ (treeS a h g es ∗ treeS a2 h2 g fs ∗ S2) ∗ (seg (boxAt es) 0 (vals es) ∗ seg (boxAt fs) 0 (vals fs) ∗ seg r2.ref 0 us)) (by cancel) ?_
  refine two_spec v1.ok v2.ok hc2.ok ?_
  rw [← sixIt]
  refine Triple.pre (P' := (seg (boxAt es) 0 (vals es) ∗ seg (boxAt fs) 0 (vals fs)) ∗ seg r2.ref 0 us ∗ sixIt (treeSrc a h g es) (treeSrc a2 h2 g fs) r2 x y x2 y2 x3 y3 ∗
    (treeS a h g es ∗ treeS a2 h2 g fs ∗ S2)) (by cancel) ?_
  refine Triple.post (C63_union (r := treeSrc a h g es) (r2 := treeSrc a2 h2 g fs) (r3 := r2) (i := 0) (j := 0) (k := 0) (G := sixIt (treeSrc a h g es) (treeSrc a2 h2 g fs) r2 x y x2 y2 x3 y3) (vlt E g) (vlt_weak hw) ⟨o1, by show _ ≤ es.length; omega, ⟨_, show _ ⊢ₛ It _ x 0 ∗ _ by unfold sixIt; cancel⟩,
      ⟨_, show _ ⊢ₛ It _ y _ ∗ _ by rw [l1, Nat.zero_add]; unfold sixIt; show _ ⊢ₛ It _ y (treeSrc a h g es).len ∗ _; cancel⟩⟩ seg_rng.left
    ⟨o2, by show _ ≤ fs.length; omega, ⟨_, show _ ⊢ₛ It _ x2 0 ∗ _ by unfold sixIt; cancel⟩,
      ⟨_, show _ ⊢ₛ It _ y2 _ ∗ _ by rw [l2, Nat.zero_add]; unfold sixIt; show _ ⊢ₛ It _ y2 (treeSrc a2 h2 g fs).len ∗ _; cancel⟩⟩ seg_rng.right (vlt_sorted hs) (vlt_sorted hs2)
    ⟨o3, by omega, ⟨_, show _ ⊢ₛ It _ x3 0 ∗ _ by unfold sixIt; cancel⟩⟩ hm (by omega) hlow .null) fun q => ?_
  refine ent_ex_left fun zs => ent_pure_left fun hz => ent_ex_right zs (ent_pure_right hz ?_)
  rw [hc2.eq _ ?_]
  · show _ ∗ seg r2.ref 0 (zs ++ us.drop zs.length) ∗ _ ⊢ₛ _
    cancel
  · have : zs.length ≤ us.length := by
      have := len_le_of_cls (vlt_weak hw) _ zs (vals es ++ vals fs) (Nat.le_refl _) fun b => by
        rw [hz.1.2 b, cls_append, List.length_append, List.length_append, List.length_drop]; omega
      rw [List.length_append] at this; omega
    simp; omega

/-- `algo_set_intersection_by` of two sets or maps into a list, forward list, vector or deque (`C2`) with enough elements -/
theorem C74_intersection (hty : g.vt ≠ 0) (hw : StrictWeak (klt E g)) (hs : KSorted E g es) (hs2 : KSorted E g fs) (hc2 : View Z C2 r2 S2) (hm : r2.kind.type < 7) (hl2 : us.length = r2.len)
    (hle : es.length ≤ us.length) :
    Triple True (isTree a h g es ∗ isTree a2 h2 g fs ∗ C2 us ∗ sixRaw x y x2 y2 x3 y3)
      (whole (treeSrc a h g es) x y (whole (treeSrc a2 h2 g fs) x2 y2 (whole r2 x3 y3 (IAlgo.setIntersection x y x2 y2 x3 (.var (0, 0)) (vlt E g)))))
      (fun q => ∃ₛ zs, ⌜IsIntersection (vlt E g) (vals es) (vals fs) zs ∧ q.1 = zs.length⌝ ∗ isTree a h g es ∗ isTree a2 h2 g fs ∗ C2 (zs ++ us.drop zs.length) ∗
        sixIt (treeSrc a h g es) (treeSrc a2 h2 g fs) r2 x y x2 y2 x3 y3) := by
  have l1 : (vals es).length = es.length := by simp [vals]
  have l2 : (vals fs).length = fs.length := by simp [vals]
  have v1 := tree_view (Z := Z) (a := a) (h := h) (es := es) hty
  have v2 := tree_view (Z := Z) (a := a2) (h := h2) (es := fs) hty
  have o1 := v1.ok.frame (G := treeS a2 h2 g fs ∗ S2)
  have o2 := v2.ok.frame (G := treeS a h g es ∗ S2)
  have o3 := hc2.ok.frame (G := treeS a h g es ∗ treeS a2 h2 g fs)
  rw [show (treeS a2 h2 g fs ∗ treeS a h g es ∗ S2) = (treeS a h g es ∗ treeS a2 h2 g fs ∗ S2) by ac_rfl] at o2
  rw [show (S2 ∗ treeS a h g es ∗ treeS a2 h2 g fs) = (treeS a h g es ∗ treeS a2 h2 g fs ∗ S2) by ac_rfl] at o3
  rw [tree_parts, tree_parts, hc2.eq us hl2]
  unfold sixRaw
  refine Triple.pre (P' := _ ∗ (treeS a h g es ∗ treeS a2 h2 g fs ∗ S2) ∗ (seg (boxAt es) 0 (vals es) ∗ seg (boxAt fs) 0 (vals fs) ∗ seg r2.ref 0 us)) (by cancel) ?_
  refine two_spec v1.ok v2.ok hc2.ok ?_
  rw [← sixIt]
  refine Triple.pre (P' := (seg (boxAt es) 0 (vals es) ∗ seg (boxAt fs) 0 (vals fs)) ∗ seg r2.ref 0 us ∗ sixIt (treeSrc a h g es) (treeSrc a2 h2 g fs) r2 x y x2 y2 x3 y3 ∗
    (treeS a h g es ∗ treeS a2 h2 g fs ∗ S2)) (by cancel) ?_
  refine Triple.post (C63_intersection (r := treeSrc a h g es) (r2 := treeSrc a2 h2 g fs) (r3 := r2) (i := 0) (j := 0) (k := 0) (G := sixIt (treeSrc a h g es) (treeSrc a2 h2 g fs) r2 x y x2 y2 x3 y3) (vlt E g) (vlt_weak hw) ⟨o1, by show _ ≤ es.length; omega, ⟨_, show _ ⊢ₛ It _ x 0 ∗ _ by unfold sixIt; cancel⟩,
      ⟨_, show _ ⊢ₛ It _ y _ ∗ _ by rw [l1, Nat.zero_add]; unfold sixIt; show _ ⊢ₛ It _ y (treeSrc a h g es).len ∗ _; cancel⟩⟩ seg_rng.left
    ⟨o2, by show _ ≤ fs.length; omega, ⟨_, show _ ⊢ₛ It _ x2 0 ∗ _ by unfold sixIt; cancel⟩,
      ⟨_, show _ ⊢ₛ It _ y2 _ ∗ _ by rw [l2, Nat.zero_add]; unfold sixIt; show _ ⊢ₛ It _ y2 (treeSrc a2 h2 g fs).len ∗ _; cancel⟩⟩ seg_rng.right (vlt_sorted hs) (vlt_sorted hs2)
    ⟨o3, by omega, ⟨_, show _ ⊢ₛ It _ x3 0 ∗ _ by unfold sixIt; cancel⟩⟩ hm (by omega) .null) fun q => ?_
  refine ent_ex_left fun zs => ent_pure_left fun hz => ent_ex_right zs (ent_pure_right hz ?_)
  rw [hc2.eq _ ?_]
  · show _ ∗ seg r2.ref 0 (zs ++ us.drop zs.length) ∗ _ ⊢ₛ _
    cancel
  · have : zs.length ≤ us.length := by
      have := len_le_of_cls (vlt_weak hw) _ zs (vals es) (Nat.le_refl _) fun b => by
        rw [hz.1.2 b, List.length_take]; omega
      omega
    simp; omega

/-- `algo_set_symmetric_difference_by` of two sets or maps into a list, forward list, vector or deque (`C2`) with enough elements -/
theorem C74_symmetric_difference (hty : g.vt ≠ 0) (hw : StrictWeak (klt E g)) (hs : KSorted E g es) (hs2 : KSorted E g fs) (hc2 : View Z C2 r2 S2) (hm : r2.kind.type < 7) (hl2 : us.length = r2.len)
    (hle : es.length + fs.length ≤ us.length) (hlow : ∀ q, q ≠ 0 → 2 ≤ low q) :
    Triple True (isTree a h g es ∗ isTree a2 h2 g fs ∗ C2 us ∗ sixRaw x y x2 y2 x3 y3)
      (whole (treeSrc a h g es) x y (whole (treeSrc a2 h2 g fs) x2 y2 (whole r2 x3 y3 (IAlgo.setSymDifference low x y x2 y2 x3 (.var (0, 0)) (vlt E g)))))
      (fun q => ∃ₛ zs, ⌜IsSymDifference (vlt E g) (vals es) (vals fs) zs ∧ q.1 = zs.length⌝ ∗ isTree a h g es ∗ isTree a2 h2 g fs ∗ C2 (zs ++ us.drop zs.length) ∗
        sixIt (treeSrc a h g es) (treeSrc a2 h2 g fs) r2 x y x2 y2 x3 y3) := by
  have l1 : (vals es).length = es.length := by simp [vals]
  have l2 : (vals fs).length = fs.length := by simp [vals]
  have v1 := tree_view (Z := Z) (a := a) (h := h) (es := es) hty
  have v2 := tree_view (Z := Z) (a := a2) (h := h2) (es := fs) hty
  have o1 := v1.ok.frame (G := treeS a2 h2 g fs ∗ S2)
  have o2 := v2.ok.frame (G := treeS a h g es ∗ S2)
  have o3 := hc2.ok.frame (G := treeS a h g es ∗ treeS a2 h2 g fs)
  rw [show (treeS a2 h2 g fs ∗ treeS a h g es ∗ S2) = (treeS a h g es ∗ treeS a2 h2 g fs ∗ S2) by ac_rfl] at o2
  rw [show (S2 ∗ treeS a h g es ∗ treeS a2 h2 g fs) = (treeS a h g es ∗ treeS a2 h2 g fs ∗ S2) by ac_rfl] at o3
  rw [tree_parts, tree_parts, hc2.eq us hl2]
  unfold sixRaw
  refine Triple.pre (P' := _ ∗ (treeS a h g es ∗ treeS a2 h2 g fs ∗ S2) ∗ (seg (boxAt es) 0 (vals es) ∗ seg (boxAt fs) 0 (vals fs) ∗ seg r2.ref 0 us)) (by cancel) ?_
  refine two_spec v1.ok v2.ok hc2.ok ?_
  rw [← sixIt]
  refine Triple.pre (P' := (seg (boxAt es) 0 (vals es) ∗ seg (boxAt fs) 0 (vals fs)) ∗ seg r2.ref 0 us ∗ sixIt (treeSrc a h g es) (treeSrc a2 h2 g fs) r2 x y x2 y2 x3 y3 ∗
    (treeS a h g es ∗ treeS a2 h2 g fs ∗ S2)) (by cancel) ?_
  refine Triple.post (C63_symmetric_difference (r := treeSrc a h g es) (r2 := treeSrc a2 h2 g fs) (r3 := r2) (i := 0) (j := 0) (k := 0) (G := sixIt (treeSrc a h g es) (treeSrc a2 h2 g fs) r2 x y x2 y2 x3 y3) (vlt E g) (vlt_weak hw) ⟨o1, by show _ ≤ es.length; omega, ⟨_, show _ ⊢ₛ It _ x 0 ∗ _ by unfold sixIt; cancel⟩,
      ⟨_, show _ ⊢ₛ It _ y _ ∗ _ by rw [l1, Nat.zero_add]; unfold sixIt; show _ ⊢ₛ It _ y (treeSrc a h g es).len ∗ _; cancel⟩⟩ seg_rng.left
    ⟨o2, by show _ ≤ fs.length; omega, ⟨_, show _ ⊢ₛ It _ x2 0 ∗ _ by unfold sixIt; cancel⟩,
      ⟨_, show _ ⊢ₛ It _ y2 _ ∗ _ by rw [l2, Nat.zero_add]; unfold sixIt; show _ ⊢ₛ It _ y2 (treeSrc a2 h2 g fs).len ∗ _; cancel⟩⟩ seg_rng.right (vlt_sorted hs) (vlt_sorted hs2)
    ⟨o3, by omega, ⟨_, show _ ⊢ₛ It _ x3 0 ∗ _ by unfold sixIt; cancel⟩⟩ hm (by omega) hlow .null) fun q => ?_
  refine ent_ex_left fun zs => ent_pure_left fun hz => ent_ex_right zs (ent_pure_right hz ?_)
  rw [hc2.eq _ ?_]
  · show _ ∗ seg r2.ref 0 (zs ++ us.drop zs.length) ∗ _ ⊢ₛ _
    cancel
  · have : zs.length ≤ us.length := by
      have := len_le_of_cls (vlt_weak hw) _ zs (vals es ++ vals fs) (Nat.le_refl _) fun b => by
        rw [hz.1.2 b, cls_append]; simp only [List.length_append, List.length_drop]; omega
      rw [List.length_append] at this; omega
    simp; omega


/-! ## a concrete memory -/

/-- a memory that the API reaches: the set 1, 2, 3 (made by inserting 3, 1, 2), the vector 3, 1, 2 and four iterator structs -/
theorem exists_set_vec : ∃ (m : Mem Nat) (a h v b x y x2 y2 : Addr) (es : List (Elem Nat)) (F : HProp Nat), (∀ t, m.orc t ≠ 0) ∧ vals es = [1, 2, 3] ∧ es.length = 3 ∧ KSorted Tree.natEnv Tree.natCfg es ∧
    (isTree a h Tree.natCfg es ∗ Vec.isVec (T := fun _ => plainOps Vec.intTy) (ty := 1) (plainSpec (nf := True) Vec.intTy) v b 3 [3, 1, 2] ∗ rawIt x ∗ rawIt y ∗ rawIt x2 ∗ rawIt y2 ∗ F) m.cells := by
  obtain ⟨m, a, h, es, ho, hp, hs, hm⟩ := Tree.exists_tree Tree.natEnv Tree.natCfg (by simp [Tree.natCfg]) Tree.natEnv_order [3, 1, 2]
  obtain ⟨v, m, _, ho', hm⟩ := (Vec.createFromArray_spec (T := fun _ => plainOps Vec.intTy) (ty := 1) (e := plainSpec (nf := True) Vec.intTy) (ws := [3, 1, 2]) (vb := 1) (vi := 1)
    (plain_plain _) (by simp) (by omega) (by simp)).run (F := isTree a h Tree.natCfg es) (s := m) (fun _ => ho) (by rw [sep_comm]; exact sep_mono (ent_refl _) Vec.plain_live _ hm)
  replace ho : ∀ t, m.orc t ≠ 0 := by rw [ho']; exact ho
  rw [sep_assoc, sep_left_comm, hex_sep] at hm
  obtain ⟨b, hm⟩ := hm
  rw [show [3, 1, 2].length = 3 from rfl] at hm
  obtain ⟨m, x, ho, hm⟩ := exists_struct ho hm
  obtain ⟨m, y, ho, hm⟩ := exists_struct ho hm
  obtain ⟨m, x2, ho, hm⟩ := exists_struct ho hm
  obtain ⟨m, y2, ho, hm⟩ := exists_struct ho hm
  have hv : vals es = [1, 2, 3] := by
    have hp2 : (vals es).Perm [1, 2, 3] := hp.trans (by decide)
    refine hp2.eq_of_pairwise (le := fun a b => a ≤ b) (fun a b _ _ h1 h2 => Nat.le_antisymm h1 h2) ?_ (by decide)
    have := vlt_sorted hs
    unfold Sorted at this
    exact this.imp (by simp [vlt, klt, Tree.natEnv])
  have hl : es.length = 3 := by
    have := congrArg List.length hv
    simpa [vals] using this
  exact ⟨m, a, h, v, b, x, y, x2, y2, es, _, ho, hv, hl, hs, (show _ ⊢ₛ _ by cancel) _ hm⟩

/-- the set 1, 2, 3 is copied over the vector 3, 1, 2 -/
example : ∃ (m m' : Mem Nat) (a h v b x y x2 y2 : Addr) (es : List (Elem Nat)) (n : Nat × Nat), vals es = [1, 2, 3] ∧
    whole (treeSrc a h Tree.natCfg es) x y (whole (vecSrc v b 1 3) x2 y2 (IAlgo.copy (fun _ => 8) x y x2 (.var (0, 0)))) m = some (.ok (n, m')) ∧ n.1 = 3 ∧
      ∃ F, (isTree a h Tree.natCfg es ∗ Vec.isVec (T := fun _ => plainOps Vec.intTy) (ty := 1) (plainSpec (nf := True) Vec.intTy) v b 3 [3, 1, 2] ∗ F) m.cells ∧
      ∃ F', (isTree a h Tree.natCfg es ∗ Vec.isVec (T := fun _ => plainOps Vec.intTy) (ty := 1) (plainSpec (nf := True) Vec.intTy) v b 3 [1, 2, 3] ∗ F') m'.cells := by
  obtain ⟨m, a, h, v, b, x, y, x2, y2, es, F, ho, hv, hl, _, hm⟩ := exists_set_vec
  have ht := C74_copy (Z := fun _ => 4) (low := fun _ => 8) (a := a) (h := h) (g := Tree.natCfg) (es := es) (x := x) (y := y) (x2 := x2) (y2 := y2) (us := [3, 1, 2]) (by simp [Tree.natCfg])
    (vec_view (nf := True) (t := Vec.intTy) (ty := 1) (v := v) (b := b) (cap := 3) (n := 3) (by simp) (by simp) (by simp)) (show 3 < 7 by decide) rfl (by rw [hl]; decide) (by simp)
  obtain ⟨n, m', h1, _, hm'⟩ := ht.run (F := _) (s := m) (fun _ => ho) ((show _ ⊢ₛ _ by cancel) _ hm)
  rw [sep_assoc, hpure_sep_apply, hl, hv, show [1, 2, 3] ++ List.drop 3 [3, 1, 2] = [1, 2, 3] from rfl] at hm'
  exact ⟨m, m', a, h, v, b, x, y, x2, y2, es, n, hv, h1, hm'.1, _, (show _ ⊢ₛ _ by cancel) _ hm, _, (show _ ⊢ₛ _ by cancel) _ hm'.2⟩

end CC.IAlgo
