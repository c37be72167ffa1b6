import Verif.Tree.Nav
import Verif.Spec.Order
/-!
# Lookups: the descents from the root
-/
namespace CC.Tree
open CC CC.Tac T
open CC.CList (Elem nodes vals firstN lastN)
variable {V β : Type} {nf : Prop} {E : Env V}

/-- the key of an element -/
def ek (E : Env V) (g : Cfg) (e : Elem V) : V := E.kov g.kov e.val
/-- the order of the keys -/
def klt (E : Env V) (g : Cfg) : V → V → Bool := E.cmp g.cmp

/-- a predicate that holds on a prefix of the elements -/
def Mono (p : Elem V → Bool) (es : List (Elem V)) : Prop := es.Pairwise fun x y => p y = true → p x = true

/-- a place in the tree that separates the elements satisfying `p` from the others -/
structure Cut (p : Elem V → Bool) (k : Ctx (Elem V)) : Prop where
  before : ∀ e ∈ before k, p e = true
  after : ∀ e ∈ after k, p e = false

theorem Cut.nil {p : Elem V → Bool} : Cut p [] := ⟨by simp, by simp⟩

theorem Cut.left {p : Elem V → Bool} {k : Ctx (Elem V)} {c : Color} {l r : T (Elem V)} {e : Elem V} (hc : Cut p k) (hm : Mono p (plug (node c l e r) k).toList)
    (hp : p e = false) : Cut p (.L c e r :: k) := by
  refine ⟨by simpa using hc.before, fun x hx => ?_⟩
  simp only [after_L, List.cons_append, List.mem_cons, List.mem_append] at hx
  rcases hx with rfl | hx | hx
  · exact hp
  · rw [toList_plug, toList_node] at hm
    simp only [Mono, List.pairwise_append, List.pairwise_cons] at hm
    have := hm.1.2.1.2.1.1 x hx
    cases hpx : p x
    · rfl
    · rw [this hpx] at hp; cases hp
  · exact hc.after x hx

theorem Cut.right {p : Elem V → Bool} {k : Ctx (Elem V)} {c : Color} {l r : T (Elem V)} {e : Elem V} (hc : Cut p k) (hm : Mono p (plug (node c l e r) k).toList)
    (hp : p e = true) : Cut p (.R c l e :: k) := by
  refine ⟨fun x hx => ?_, by simpa using hc.after⟩
  simp only [before_R, List.mem_append, List.mem_singleton] at hx
  rcases hx with hx | hx | rfl
  · exact hc.before x hx
  · rw [toList_plug, toList_node] at hm
    simp only [Mono, List.pairwise_append, List.pairwise_cons] at hm
    exact hm.1.2.1.2.2 x hx e (by simp) hp
  · exact hp

theorem Cut.filter {p : Elem V → Bool} {k : Ctx (Elem V)} (hc : Cut p k) :
    (plug leaf k).toList.filter p = Tree.before k ∧ (plug leaf k).toList.filter (fun e => !p e) = Tree.after k := by
  rw [toList_plug]
  simp only [toList_leaf, List.append_nil, List.filter_append]
  constructor
  · rw [List.filter_eq_self.2 hc.before, List.filter_eq_nil_iff.2 (fun e he => by simp [hc.after e he]), List.append_nil]
  · rw [List.filter_eq_self (l := Tree.after k).2 (fun e he => by simp [hc.after e he]), List.filter_eq_nil_iff.2 (fun e he => by simp [hc.before e he]), List.nil_append]

section
variable {a h N : Nat} {g : Cfg} {t : T (Elem V)} {F : HProp V} {Q : β → HProp V} {key : Loc} {v : V}

theorem tree_mid {c : Color} {l r : T (Elem V)} {e : Elem V} {k : Ctx (Elem V)} (ht : t = plug (node c l e r) k) :
    t.toList = (before k ++ l.toList) ++ e :: (r.toList ++ after k) := by
  rw [ht, toList_plug]; simp

theorem e_ne_zero (hf : Facts a h t.toList) {c : Color} {l r : T (Elem V)} {e : Elem V} {k : Ctx (Elem V)} (ht : t = plug (node c l e r) k) : e.node ≠ 0 :=
  (hf.ne e (by rw [tree_mid ht]; simp)).2.1

theorem lowerLoopF_cps {s : T (Elem V)} {k : Ctx (Elem V)} {K : Nat → M V β} (hN : s.height + 1 ≤ N) (ht : t = plug s k) (hv : Reads (isShape a h g t ∗ F) key v)
    (hm : Mono (fun e => klt E g (ek E g e) v) t.toList) (hc : Cut (fun e => klt E g (ek E g e) v) k)
    (hk : Triple nf (isShape a h g t ∗ F) (K (firstN (t.toList.filter fun e => !klt E g (ek E g e) v) h)) Q) :
    Triple nf (isShape a h g t ∗ F) (lowerLoopF E N a (rootA s) (firstN (after k) h) key >>= K) Q := by
  refine with_facts fun hf => ?_
  induction s generalizing k N with
  | leaf =>
    simp only [T.height] at hN
    obtain ⟨N, rfl⟩ : ∃ N', N = N' + 1 := ⟨N - 1, by omega⟩
    rw [lowerLoopF, rootA_leaf, if_neg (by simp), pure_bind]
    have := hc.filter.2
    rw [← ht] at this
    rw [this] at hk
    exact hk
  | node c l e r ihl ihr =>
    simp only [T.height] at hN
    obtain ⟨N, rfl⟩ : ∃ N', N = N' + 1 := ⟨N - 1, by omega⟩
    rw [lowerLoopF, rootA_node, if_pos (e_ne_zero hf ht), bind_assoc]
    refine nodeLtRef_cps (e := e) (tree_mid ht) hv ?_
    cases hp : E.cmp g.cmp (E.kov g.kov e.val) v
    · simp only [Bool.not_false, ↓reduceIte, bind_assoc]
      refine ldN_reads (rd_left ht) ?_
      exact ihl (k := .L c e r :: k) (N := N) (by omega) ht (hc.left (l := l) (by rw [← ht]; exact hm) hp)
    · simp only [Bool.not_true, Bool.false_eq_true, ↓reduceIte, bind_assoc]
      refine ldN_reads (rd_right ht) ?_
      exact ihr (k := .R c l e :: k) (N := N) (by omega) ht (hc.right (r := r) (by rw [← ht]; exact hm) hp)

theorem upperLoopF_cps {s : T (Elem V)} {k : Ctx (Elem V)} {K : Nat → M V β} (hN : s.height + 1 ≤ N) (ht : t = plug s k) (hv : Reads (isShape a h g t ∗ F) key v)
    (hm : Mono (fun e => !klt E g v (ek E g e)) t.toList) (hc : Cut (fun e => !klt E g v (ek E g e)) k)
    (hk : Triple nf (isShape a h g t ∗ F) (K (firstN (t.toList.filter fun e => klt E g v (ek E g e)) h)) Q) :
    Triple nf (isShape a h g t ∗ F) (upperLoopF E N a (rootA s) (firstN (after k) h) key >>= K) Q := by
  refine with_facts fun hf => ?_
  induction s generalizing k N with
  | leaf =>
    simp only [T.height] at hN
    obtain ⟨N, rfl⟩ : ∃ N', N = N' + 1 := ⟨N - 1, by omega⟩
    rw [upperLoopF, rootA_leaf, if_neg (by simp), pure_bind]
    have := hc.filter.2
    rw [← ht] at this
    simp only [Bool.not_not] at this
    rw [this] at hk
    exact hk
  | node c l e r ihl ihr =>
    simp only [T.height] at hN
    obtain ⟨N, rfl⟩ : ∃ N', N = N' + 1 := ⟨N - 1, by omega⟩
    rw [upperLoopF, rootA_node, if_pos (e_ne_zero hf ht), bind_assoc]
    refine refLtNode_cps (e := e) (tree_mid ht) hv ?_
    cases hp : E.cmp g.cmp v (E.kov g.kov e.val)
    · simp only [Bool.false_eq_true, ↓reduceIte, bind_assoc]
      refine ldN_reads (rd_right ht) ?_
      exact ihr (k := .R c l e :: k) (N := N) (by omega) ht (hc.right (r := r) (by rw [← ht]; exact hm) (by simpa [klt, ek] using hp))
    · simp only [↓reduceIte, bind_assoc]
      refine ldN_reads (rd_left ht) ?_
      exact ihl (k := .L c e r :: k) (N := N) (by omega) ht (hc.left (l := l) (by rw [← ht]; exact hm) (by simpa [klt, ek] using hp))

/-- the descents of the insertions end at the place behind everything that is not greater -/
theorem descendF_cps {s : T (Elem V)} {k : Ctx (Elem V)} {K : Nat × Bool → M V β} (hN : s.height + 1 ≤ N) (ht : t = plug s k) (hv : Reads (isShape a h g t ∗ F) key v)
    (hm : Mono (fun e => !klt E g (E.kov g.kov v) (ek E g e)) t.toList) (hc : Cut (fun e => !klt E g (E.kov g.kov v) (ek E g e)) k) (hs : Side E g 0 v k)
    (hk : ∀ k, t = plug leaf k → Cut (fun e => !klt E g (E.kov g.kov v) (ek E g e)) k → Side E g 0 v k → Triple nf (isShape a h g t ∗ F) (K (upA h k, endsL k)) Q) :
    Triple nf (isShape a h g t ∗ F) (descendF E N a (rootA s) (upA h k) (endsL k) key >>= K) Q := by
  refine with_facts fun hf => ?_
  induction s generalizing k N with
  | leaf =>
    simp only [T.height] at hN
    obtain ⟨N, rfl⟩ : ∃ N', N = N' + 1 := ⟨N - 1, by omega⟩
    rw [descendF, rootA_leaf, if_neg (by simp), pure_bind]
    exact hk k ht hc hs
  | node c l e r ihl ihr =>
    simp only [T.height] at hN
    obtain ⟨N, rfl⟩ : ∃ N', N = N' + 1 := ⟨N - 1, by omega⟩
    rw [descendF, rootA_node, if_pos (e_ne_zero hf ht), bind_assoc]
    refine valLtNode_cps (e := e) (tree_mid ht) hv ?_
    cases hp : E.cmp g.cmp (E.kov g.kov v) (E.kov g.kov e.val)
    · simp only [Bool.false_eq_true, ↓reduceIte, bind_assoc]
      refine ldN_reads (rd_right ht) ?_
      exact ihr (k := .R c l e :: k) (N := N) (by omega) ht (hc.right (r := r) (by rw [← ht]; exact hm) (by simpa [klt, ek] using hp)) ⟨rfl, hp⟩
    · simp only [↓reduceIte, bind_assoc]
      refine ldN_reads (rd_left ht) ?_
      exact ihl (k := .L c e r :: k) (N := N) (by omega) ht (hc.left (l := l) (by rw [← ht]; exact hm) (by simpa [klt, ek] using hp)) (Or.inr hp)

theorem descendEqF_cps {s : T (Elem V)} {k : Ctx (Elem V)} {K : Nat → M V β} (hN : s.height + 1 ≤ N) (ht : t = plug s k) (hv : Reads (isShape a h g t ∗ F) key v)
    (hm : Mono (fun e => !klt E g (E.kov g.kov v) (ek E g e)) t.toList) (hc : Cut (fun e => !klt E g (E.kov g.kov v) (ek E g e)) k) (hs : Side E g 0 v k)
    (hk : ∀ k, t = plug leaf k → Cut (fun e => !klt E g (E.kov g.kov v) (ek E g e)) k → Side E g 0 v k → Triple nf (isShape a h g t ∗ F) (K (upA h k)) Q) :
    Triple nf (isShape a h g t ∗ F) (descendEqF E N a (rootA s) (upA h k) key >>= K) Q := by
  refine with_facts fun hf => ?_
  induction s generalizing k N with
  | leaf =>
    simp only [T.height] at hN
    obtain ⟨N, rfl⟩ : ∃ N', N = N' + 1 := ⟨N - 1, by omega⟩
    rw [descendEqF, rootA_leaf, if_neg (by simp), pure_bind]
    exact hk k ht hc hs
  | node c l e r ihl ihr =>
    simp only [T.height] at hN
    obtain ⟨N, rfl⟩ : ∃ N', N = N' + 1 := ⟨N - 1, by omega⟩
    rw [descendEqF, rootA_node, if_pos (e_ne_zero hf ht), bind_assoc]
    refine valLtNode_cps (e := e) (tree_mid ht) hv ?_
    cases hp : E.cmp g.cmp (E.kov g.kov v) (E.kov g.kov e.val)
    · simp only [Bool.false_eq_true, ↓reduceIte, bind_assoc]
      refine ldN_reads (rd_right ht) ?_
      exact ihr (k := .R c l e :: k) (N := N) (by omega) ht (hc.right (r := r) (by rw [← ht]; exact hm) (by simpa [klt, ek] using hp)) ⟨rfl, hp⟩
    · simp only [↓reduceIte, bind_assoc]
      refine ldN_reads (rd_left ht) ?_
      exact ihl (k := .L c e r :: k) (N := N) (by omega) ht (hc.left (l := l) (by rw [← ht]; exact hm) (by simpa [klt, ek] using hp)) (Or.inr hp)

/-- the elements in order of their keys -/
def KSorted (E : Env V) (g : Cfg) (es : List (Elem V)) : Prop := Sorted (klt E g) (es.map (ek E g))

theorem KSorted.iff {es : List (Elem V)} : KSorted E g es ↔ es.Pairwise fun x y => klt E g (ek E g y) (ek E g x) = false := by
  unfold KSorted Sorted
  rw [List.pairwise_map]

theorem KSorted.lower {es : List (Elem V)} (hw : StrictWeak (klt E g)) (hs : KSorted E g es) : Mono (fun e => klt E g (ek E g e) v) es := by
  refine (KSorted.iff.1 hs).imp fun {x y} hxy hy => ?_
  dsimp only at hy ⊢
  cases hx : klt E g (ek E g x) v
  · have := hw.negtrans hxy hx
    rw [this] at hy; cases hy
  · rfl
theorem KSorted.upper {es : List (Elem V)} (hw : StrictWeak (klt E g)) (hs : KSorted E g es) : Mono (fun e => !klt E g v (ek E g e)) es := by
  refine (KSorted.iff.1 hs).imp fun {x y} hxy hy => ?_
  simp only [Bool.not_eq_true'] at hy ⊢
  exact hw.negtrans hy hxy

theorem lowerBoundF_cps {K : Nat → M V β} (hN : t.height + 1 ≤ N) (hw : StrictWeak (klt E g)) (hs : KSorted E g t.toList) (hvt : g.vt ≠ 0) (hk0 : key.1 ≠ 0) (hv : Reads (isShape a h g t ∗ F) key v)
    (hk : Triple nf (isShape a h g t ∗ F) (K (firstN (t.toList.filter fun e => !klt E g (ek E g e) v) h)) Q) :
    Triple nf (isShape a h g t ∗ F) (lowerBoundF E N a key >>= K) Q := by
  refine with_facts fun hf => ?_
  unfold lowerBoundF
  step
  step
  · simpa using hf.a0
  step
  step
  · simpa using hk0
  rw [bind_assoc]
  refine ldN_reads rd_header ?_
  rw [bind_assoc]
  refine root_cps ?_
  rw [bind_assoc]
  refine lowerLoopF_cps (k := []) hN rfl hv (hs.lower hw) Cut.nil ?_
  refine mkIter_cps hvt ?_ hk
  cases hfl : t.toList.filter fun e => !klt E g (ek E g e) v with
  | nil => exact hf.h0
  | cons y ys =>
    have : y ∈ t.toList.filter fun e => !klt E g (ek E g e) v := by rw [hfl]; simp
    exact (hf.ne y (List.mem_filter.1 this).1).2.1
theorem lowerBound_cps {K : Nat → M V β} (hw : StrictWeak (klt E g)) (hs : KSorted E g t.toList) (hvt : g.vt ≠ 0) (hk0 : key.1 ≠ 0) (hv : Reads (isShape a h g t ∗ F) key v)
    (hk : Triple nf (isShape a h g t ∗ F) (K (firstN (t.toList.filter fun e => !klt E g (ek E g e) v) h)) Q) :
    Triple nf (isShape a h g t ∗ F) (lowerBound E a key >>= K) Q :=
  Triple.leB (lowerBoundF_le _ (t.height + 1) a key) (lowerBoundF_cps (Nat.le_refl _) hw hs hvt hk0 hv hk)

theorem upperBoundF_cps {K : Nat → M V β} (hN : t.height + 1 ≤ N) (hw : StrictWeak (klt E g)) (hs : KSorted E g t.toList) (hvt : g.vt ≠ 0) (hk0 : key.1 ≠ 0) (hv : Reads (isShape a h g t ∗ F) key v)
    (hk : Triple nf (isShape a h g t ∗ F) (K (firstN (t.toList.filter fun e => klt E g v (ek E g e)) h)) Q) :
    Triple nf (isShape a h g t ∗ F) (upperBoundF E N a key >>= K) Q := by
  refine with_facts fun hf => ?_
  unfold upperBoundF
  step
  step
  · simpa using hf.a0
  step
  step
  · simpa using hk0
  rw [bind_assoc]
  refine ldN_reads rd_header ?_
  rw [bind_assoc]
  refine root_cps ?_
  rw [bind_assoc]
  refine upperLoopF_cps (k := []) hN rfl hv (hs.upper hw) Cut.nil ?_
  refine mkIter_cps hvt ?_ hk
  cases hfl : t.toList.filter fun e => klt E g v (ek E g e) with
  | nil => exact hf.h0
  | cons y ys =>
    have : y ∈ t.toList.filter fun e => klt E g v (ek E g e) := by rw [hfl]; simp
    exact (hf.ne y (List.mem_filter.1 this).1).2.1
theorem upperBound_cps {K : Nat → M V β} (hw : StrictWeak (klt E g)) (hs : KSorted E g t.toList) (hvt : g.vt ≠ 0) (hk0 : key.1 ≠ 0) (hv : Reads (isShape a h g t ∗ F) key v)
    (hk : Triple nf (isShape a h g t ∗ F) (K (firstN (t.toList.filter fun e => klt E g v (ek E g e)) h)) Q) :
    Triple nf (isShape a h g t ∗ F) (upperBound E a key >>= K) Q :=
  Triple.leB (upperBoundF_le _ (t.height + 1) a key) (upperBoundF_cps (Nat.le_refl _) hw hs hvt hk0 hv hk)

/-- what `c_tree_find` looks for: an equivalent key -/
def keq (E : Env V) (g : Cfg) (v : V) (e : Elem V) : Bool := equivB (klt E g) v (ek E g e)

theorem findLoopF_cps {s : T (Elem V)} {k : Ctx (Elem V)} {K : Nat → M V β} (hw : StrictWeak (klt E g)) (hs : KSorted E g t.toList) (hN : s.height + 1 ≤ N) (ht : t = plug s k) (hv : Reads (isShape a h g t ∗ F) key v)
    (hc : ∀ e ∈ before k ++ after k, keq E g v e = false)
    (hk1 : ∀ e ∈ t.toList, keq E g v e = true → Triple nf (isShape a h g t ∗ F) (K e.node) Q)
    (hk2 : (∀ e ∈ t.toList, keq E g v e = false) → Triple nf (isShape a h g t ∗ F) (K 0) Q) :
    Triple nf (isShape a h g t ∗ F) (findLoopF E N a (rootA s) key >>= K) Q := by
  refine with_facts fun hf => ?_
  induction s generalizing k N with
  | leaf =>
    simp only [T.height] at hN
    obtain ⟨N, rfl⟩ : ∃ N', N = N' + 1 := ⟨N - 1, by omega⟩
    rw [findLoopF, rootA_leaf, if_neg (by simp), pure_bind]
    refine hk2 fun e he => hc e ?_
    rw [ht, toList_plug] at he
    simpa using he
  | node c l e r ihl ihr =>
    simp only [T.height] at hN
    obtain ⟨N, rfl⟩ : ∃ N', N = N' + 1 := ⟨N - 1, by omega⟩
    rw [findLoopF, rootA_node, if_pos (e_ne_zero hf ht), bind_assoc]
    have hs' := KSorted.iff.1 hs
    rw [tree_mid ht] at hs'
    simp only [List.append_assoc, List.pairwise_append, List.pairwise_cons, List.mem_append, List.mem_cons] at hs'
    refine refLtNode_cps (e := e) (tree_mid ht) hv ?_
    cases hp : E.cmp g.cmp v (E.kov g.kov e.val)
    · simp only [Bool.false_eq_true, ↓reduceIte, bind_assoc]
      refine nodeLtRef_cps (e := e) (tree_mid ht) hv ?_
      cases hp2 : E.cmp g.cmp (E.kov g.kov e.val) v
      · simp only [Bool.not_false, ↓reduceIte, pure_bind]
        refine hk1 e (by rw [tree_mid ht]; simp) ?_
        simp [keq, equivB, klt, ek, hp, hp2]
      · simp only [Bool.not_true, Bool.false_eq_true, ↓reduceIte, bind_assoc]
        refine ldN_reads (rd_right ht) ?_
        refine ihr (k := .R c l e :: k) (N := N) (by omega) ht fun x hx => ?_
        simp only [before_R, after_R, List.mem_append, List.mem_singleton] at hx
        have hxe : klt E g (ek E g x) v = true → keq E g v x = false := by intro h; simp [keq, equivB, h]
        rcases hx with (hx | hx | rfl) | hx
        · exact hc x (by simp [hx])
        · apply hxe
          have h1 := hs'.2.1.2.2 x hx e (by simp)
          cases h2 : klt E g (ek E g x) v
          · have := hw.negtrans h1 h2
            simp only [klt, ek] at this
            rw [this] at hp2; cases hp2
          · rfl
        · exact hxe hp2
        · exact hc x (by simp [hx])
    · simp only [↓reduceIte, bind_assoc]
      refine ldN_reads (rd_left ht) ?_
      refine ihl (k := .L c e r :: k) (N := N) (by omega) ht fun x hx => ?_
      simp only [before_L, after_L, List.mem_append, List.mem_cons, List.cons_append] at hx
      have hxe : klt E g v (ek E g x) = true → keq E g v x = false := by intro h; simp [keq, equivB, h]
      rcases hx with hx | rfl | hx | hx
      · exact hc x (by simp [hx])
      · exact hxe hp
      · apply hxe
        have h1 := hs'.2.1.2.1.1 x (Or.inl hx)
        cases h2 : klt E g v (ek E g x)
        · have := hw.negtrans h2 h1
          simp only [klt, ek] at this
          rw [this] at hp; cases hp
        · rfl
      · exact hc x (by simp [hx])

theorem findF_cps {K : Nat → M V β} (hN : t.height + 1 ≤ N) (hw : StrictWeak (klt E g)) (hs : KSorted E g t.toList) (hvt : g.vt ≠ 0) (hk0 : key.1 ≠ 0) (hv : Reads (isShape a h g t ∗ F) key v)
    (hk1 : ∀ e ∈ t.toList, keq E g v e = true → Triple nf (isShape a h g t ∗ F) (K e.node) Q)
    (hk2 : (∀ e ∈ t.toList, keq E g v e = false) → Triple nf (isShape a h g t ∗ F) (K h) Q) :
    Triple nf (isShape a h g t ∗ F) (findF E N a key >>= K) Q := by
  refine with_facts fun hf => ?_
  unfold findF
  rw [bind_assoc]
  refine empty_cps ?_
  by_cases he : t.toList.isEmpty = true
  · rw [if_pos (Or.inl he)]
    refine end_cps hvt (hk2 ?_)
    rw [List.isEmpty_iff.1 he]; simp
  · rw [if_neg (by simp only [not_or]; exact ⟨he, hk0⟩), bind_assoc]
    refine root_cps ?_
    rw [bind_assoc]
    refine findLoopF_cps (k := []) hw hs hN rfl hv (by simp) ?_ ?_
    · intro e he heq
      have h0 := (hf.ne e he).2.1
      rw [if_pos h0]
      exact mkIter_cps hvt h0 (hk1 e he heq)
    · intro h
      rw [if_neg (by simp)]
      exact end_cps hvt (hk2 h)
theorem find_cps {K : Nat → M V β} (hw : StrictWeak (klt E g)) (hs : KSorted E g t.toList) (hvt : g.vt ≠ 0) (hk0 : key.1 ≠ 0) (hv : Reads (isShape a h g t ∗ F) key v)
    (hk1 : ∀ e ∈ t.toList, keq E g v e = true → Triple nf (isShape a h g t ∗ F) (K e.node) Q)
    (hk2 : (∀ e ∈ t.toList, keq E g v e = false) → Triple nf (isShape a h g t ∗ F) (K h) Q) :
    Triple nf (isShape a h g t ∗ F) (find E a key >>= K) Q :=
  Triple.leB (findF_le _ (t.height + 1) a key) (findF_cps (Nat.le_refl _) hw hs hvt hk0 hv hk1 hk2)

theorem countSub_cps {s : T (Elem V)} {k : Ctx (Elem V)} {K : Nat → M V β} (hw : StrictWeak (klt E g)) (hs : KSorted E g t.toList) (ht : t = plug s k) (hv : Reads (isShape a h g t ∗ F) key v)
    (hk : Triple nf (isShape a h g t ∗ F) (K (s.toList.countP (keq E g v))) Q) :
    Triple nf (isShape a h g t ∗ F) (countSub E a (rootA s) key >>= K) Q := by
  refine with_facts fun hf => ?_
  induction s generalizing k K with
  | leaf =>
    rw [countSub, rootA_leaf, if_neg (by simp), pure_bind]
    exact hk
  | node c l e r ihl ihr =>
    rw [countSub, rootA_node, if_pos (e_ne_zero hf ht), bind_assoc]
    have hs' := KSorted.iff.1 hs
    rw [tree_mid ht] at hs'
    simp only [List.append_assoc, List.pairwise_append, List.pairwise_cons, List.mem_append, List.mem_cons] at hs'
    simp only [toList_node, List.countP_append, List.countP_cons] at hk
    refine refLtNode_cps (e := e) (tree_mid ht) hv ?_
    cases hp : E.cmp g.cmp v (E.kov g.kov e.val)
    · simp only [Bool.false_eq_true, ↓reduceIte, bind_assoc]
      refine nodeLtRef_cps (e := e) (tree_mid ht) hv ?_
      cases hp2 : E.cmp g.cmp (E.kov g.kov e.val) v
      · simp only [Bool.not_false, ↓reduceIte, bind_assoc, pure_bind]
        refine ldN_reads (rd_left ht) ?_
        refine ihl (k := .L c e r :: k) ht ?_
        refine ldN_reads (rd_right ht) ?_
        refine ihr (k := .R c l e :: k) ht ?_
        have : keq E g v e = true := by simp [keq, equivB, klt, ek, hp, hp2]
        rw [if_pos this] at hk
        rw [Nat.zero_add, Nat.add_assoc]
        exact hk
      · simp only [Bool.not_true, Bool.false_eq_true, ↓reduceIte, bind_assoc]
        refine ldN_reads (rd_right ht) ?_
        refine ihr (k := .R c l e :: k) ht ?_
        have hxe : ∀ x, klt E g (ek E g x) v = true → keq E g v x = false := by intro x h; simp [keq, equivB, h]
        have h1 : l.toList.countP (keq E g v) = 0 := by
          refine List.countP_eq_zero.2 fun x hx => ?_
          rw [hxe x]; simp
          have h1 := hs'.2.1.2.2 x hx e (by simp)
          cases h2 : klt E g (ek E g x) v
          · have := hw.negtrans h1 h2
            simp only [klt, ek] at this
            rw [this] at hp2; cases hp2
          · rfl
        rw [h1, hxe e hp2] at hk
        simpa using hk
    · simp only [↓reduceIte, bind_assoc]
      refine ldN_reads (rd_left ht) ?_
      refine ihl (k := .L c e r :: k) ht ?_
      have hxe : ∀ x, klt E g v (ek E g x) = true → keq E g v x = false := by intro x h; simp [keq, equivB, h]
      have h1 : r.toList.countP (keq E g v) = 0 := by
        refine List.countP_eq_zero.2 fun x hx => ?_
        rw [hxe x]; simp
        have h1 := hs'.2.1.2.1.1 x (Or.inl hx)
        cases h2 : klt E g v (ek E g x)
        · have := hw.negtrans h2 h1
          simp only [klt, ek] at this
          rw [this] at hp; cases hp
        · rfl
      rw [h1, hxe e hp] at hk
      simpa using hk

theorem count_cps {K : Nat → M V β} (hw : StrictWeak (klt E g)) (hs : KSorted E g t.toList) (hk0 : key.1 ≠ 0) (hv : Reads (isShape a h g t ∗ F) key v)
    (hk : Triple nf (isShape a h g t ∗ F) (K (t.toList.countP (keq E g v))) Q) :
    Triple nf (isShape a h g t ∗ F) (count E a key >>= K) Q := by
  unfold count
  rw [bind_assoc]
  refine empty_cps ?_
  by_cases he : t.toList.isEmpty = true
  · rw [if_pos (Or.inl he), pure_bind]
    rw [List.isEmpty_iff.1 he] at hk
    exact hk
  · rw [if_neg (by simp only [not_or]; exact ⟨he, hk0⟩), bind_assoc]
    refine root_cps ?_
    exact countSub_cps (k := []) hw hs rfl hv hk
end

end CC.Tree
