import Verif.Algo.Partition
import Verif.Spec.Heap
/-!
# Model of `algorithm/c_heap.c` and proofs about it

Here all ranges are those of random access iterators.  Positions computed for children that do not exist (`__c_iter_copy_and_move` past the end) are not dereferenced; as numbers they do no harm.
-/
namespace CC.Algo
open CC CC.Tac
variable {V : Type} {nf : Prop} {P : HProp V} {c d : Slots} {i j n h : Nat} {vs us : List V} {f g : Nat → V} {comp : V → V → Bool}

/-- `__percolate_down`, c_heap.c:45-95, as a loop -/
def percolate (c : Slots) (first length hole : Nat) (comp : V → V → Bool) : M V Unit := do
  let left := 2 * hole + 1
  let b1 ← (if left < length then cmp comp (c (first + hole)) (c (first + left)) else pure false)
  let sw := if b1 then left else hole
  let right := 2 * (hole + 1)
  let b2 ← (if right < length then cmp comp (c (first + sw)) (c (first + right)) else pure false)
  let sw := if b2 then right else sw
  if sw ≠ hole then do
    swp (c (first + hole)) (c (first + sw))
    percolate c first length sw comp
  else pure ()
partial_fixpoint

/-- loop of `__heapify`, c_heap.c:105-108, for hole indices below the given number -/
def heapifyLoop (c : Slots) (first length : Nat) (comp : V → V → Bool) : Nat → M V Unit
  | 0 => pure ()
  | k + 1 => do
    percolate c first length k comp
    heapifyLoop c first length comp k

/-- `__heapify`, c_heap.c:97-111 (called with at least two elements) -/
def heapify (c : Slots) (first last : Nat) (comp : V → V → Bool) : M V Unit :=
  heapifyLoop c first (last - first) comp ((last - first - 1 - 1) / 2 + 1)

/-- loop of `algo_is_heap_until_by`, c_heap.c:156-175; returns `__is_heap` and the iterator -/
def isHeapLoop (c : Slots) (first dist p : Nat) (comp : V → V → Bool) : M V (Bool × Nat) :=
  if 2 * p + 1 < dist then do
    if ← cmp comp (c (first + p)) (c (first + (2 * p + 1))) then pure (false, first + p) else do
    let b ← (if 2 * (p + 1) < dist then cmp comp (c (first + p)) (c (first + 2 * (p + 1))) else pure false)
    if b then pure (false, first + p) else isHeapLoop c first dist (p + 1) comp
  else pure (true, first + dist)
partial_fixpoint

/-- `algo_is_heap_until_by`, c_heap.c:135-184; returns `*until` -/
def isHeapUntil (c : Slots) (first last : Nat) (comp : V → V → Bool) : M V Nat := do
  let r ← isHeapLoop c first (last - first) 0 comp
  pure r.2

/-- `algo_is_heap_by`, c_heap.c:113-133 -/
def isHeap (c : Slots) (first last : Nat) (comp : V → V → Bool) : M V Bool := do
  let u ← isHeapUntil c first last comp
  pure (u == last)

/-- loop of `algo_push_heap_by`, c_heap.c:207-218; `v` is the contents of `__value` -/
def pushLoop (c : Slots) (first : Nat) (comp : V → V → Bool) (v : V) (hole : Nat) : M V Nat :=
  if 0 < hole then do
    let a ← ldV (c (first + (hole - 1) / 2))
    if comp a v then do
      asg (c (first + hole)) (c (first + (hole - 1) / 2))
      pushLoop c first comp v ((hole - 1) / 2)
    else pure hole
  else pure hole
partial_fixpoint

/-- `algo_push_heap_by`, c_heap.c:186-227 -/
def pushHeap (c : Slots) (first last : Nat) (comp : V → V → Bool) : M V Unit :=
  if last - first < 2 then pure () else do
  let last ← dec last
  let v ← ldV (c last)
  let hole ← pushLoop c first comp v (last - first)
  wr (c (first + hole)) v

/-- loop of `algo_pop_heap_by`, c_heap.c:253-290 -/
def popLoop (c : Slots) (first len hole : Nat) (comp : V → V → Bool) : M V Unit :=
  if 2 * hole + 1 < len then do
    if 2 * (hole + 1) < len then do
      if ← cmp comp (c (first + (2 * hole + 1))) (c (first + 2 * (hole + 1))) then do
        if ← cmp comp (c (first + hole)) (c (first + 2 * (hole + 1))) then do
          swp (c (first + hole)) (c (first + 2 * (hole + 1)))
          popLoop c first len (2 * (hole + 1)) comp
        else pure ()
      else do
        if ← cmp comp (c (first + hole)) (c (first + (2 * hole + 1))) then do
          swp (c (first + hole)) (c (first + (2 * hole + 1)))
          popLoop c first len (2 * hole + 1) comp
        else pure ()
    else do
      if ← cmp comp (c (first + hole)) (c (first + (2 * hole + 1))) then do
        swp (c (first + hole)) (c (first + (2 * hole + 1)))
        popLoop c first len (2 * hole + 1) comp
      else pure ()
  else pure ()
partial_fixpoint

/-- `algo_pop_heap_by`, c_heap.c:229-297 -/
def popHeap (c : Slots) (first last : Nat) (comp : V → V → Bool) : M V Unit :=
  if last - first < 2 then pure () else do
  let last ← dec last
  swp (c first) (c last)
  popLoop c first (last - first) 0 comp

/-- `algo_make_heap_by`, c_heap.c:299-314 -/
def makeHeap (c : Slots) (first last : Nat) (comp : V → V → Bool) : M V Unit :=
  if last - first < 2 then pure () else heapify c first last comp

/-- loop of `algo_sort_heap_by`, c_heap.c:328-331 -/
def sortHeapLoop (c : Slots) (first last : Nat) (comp : V → V → Bool) : M V Unit :=
  if first ≠ last then do
    popHeap c first last comp
    let last ← dec last
    sortHeapLoop c first last comp
  else pure ()
partial_fixpoint

/-- `algo_sort_heap_by`, c_heap.c:316-334 -/
def sortHeap (c : Slots) (first last : Nat) (comp : V → V → Bool) : M V Unit :=
  if last - first < 2 then pure () else sortHeapLoop c first last comp

/-! ## ranges given by functions -/

/-- the list `f 0, …, f (n - 1)` -/
def tab (n : Nat) (f : Nat → V) : List V := (List.range n).map f

@[simp] theorem tab_length : (tab n f).length = n := by simp [tab]
theorem tab_getElem? {k : Nat} (hk : k < n) : (tab n f)[k]? = some (f k) := by simp [tab, hk]
theorem tab_succ : tab (n + 1) f = tab n f ++ [f n] := by simp [tab, List.range_succ]
theorem tab_congr (h : ∀ k, k < n → f k = g k) : tab n f = tab n g := List.map_congr_left fun k hk => h k (List.mem_range.1 hk)
theorem mem_tab {v : V} : v ∈ tab n f ↔ ∃ k, k < n ∧ f k = v := by simp [tab]

theorem exists_tab (hne : vs ≠ []) : ∃ f, vs = tab vs.length f := by
  obtain ⟨v, vs', rfl⟩ := List.exists_cons_of_ne_nil hne
  refine ⟨fun k => (v :: vs').getD k v, ?_⟩
  apply List.ext_getElem?
  intro k
  by_cases hk : k < (v :: vs').length
  · rw [tab_getElem? hk, List.getD_eq_getElem?_getD, List.getElem?_eq_getElem hk]; rfl
  · rw [List.getElem?_eq_none (by omega), List.getElem?_eq_none (by simp at hk ⊢; omega)]

/-- exchange two values -/
def swapf (f : Nat → V) (a b : Nat) : Nat → V := fun k => if k = a then f b else if k = b then f a else f k

theorem swapf_left {a b : Nat} : swapf f a b a = f b := by simp [swapf]
theorem swapf_right {a b : Nat} : swapf f a b b = f a := by unfold swapf; split <;> simp_all
theorem swapf_other {a b k : Nat} (h1 : k ≠ a) (h2 : k ≠ b) : swapf f a b k = f k := by simp [swapf, h1, h2]

theorem tab_swapf {a b : Nat} (ha : a < n) (hb : b < n) : tab n (swapf f a b) = ((tab n f).set a (f b)).set b (f a) := by
  apply List.ext_getElem?
  intro k
  by_cases hk : k < n
  · rw [tab_getElem? hk, List.getElem?_set, List.getElem?_set, tab_getElem? hk]
    by_cases h1 : k = b
    · subst h1; simp [swapf_right, hk]
    · by_cases h2 : k = a
      · subst h2; simp [swapf_left, Ne.symm h1, hk]
      · simp [swapf_other h2 h1, Ne.symm h1, Ne.symm h2]
  · rw [List.getElem?_eq_none (by simp; omega), List.getElem?_eq_none (by simp; omega)]

theorem tab_getElem {k : Nat} (hk : k < (tab n f).length) : (tab n f)[k] = f k := by simp [tab]

theorem tab_swapf_perm {a b : Nat} (ha : a < n) (hb : b < n) : (tab n (swapf f a b)).Perm (tab n f) := by
  rw [tab_swapf ha hb]
  have := List.set_set_perm (as := tab n f) (i := a) (j := b) (by simpa) (by simpa)
  rw [tab_getElem, tab_getElem] at this
  exact this

theorem tab_reads {k : Nat} (hk : k < n) : Reads (seg c i (tab n f)) (c (i + k)) (f k) := by
  have := (seg_rng (c := c) (i := i) (vs := tab n f)) k (by simpa)
  rwa [tab_getElem] at this

theorem swp_tab {a b : Nat} (ha : a < n) (hb : b < n) :
    Triple nf (seg c i (tab n f)) (swp (c (i + a)) (c (i + b))) (fun _ => seg c i (tab n (swapf f a b))) := by
  rw [tab_swapf ha hb]
  have := swp_seg (nf := nf) (c := c) (i := i) (vs := tab n f) (k := a) (l := b) (by simpa) (by simpa)
  rw [tab_getElem, tab_getElem] at this
  exact this

/-! ## the heap property -/

/-- the heap property for the parents from index `j` on -/
def HeapFrom (lt : V → V → Bool) (n j : Nat) (f : Nat → V) : Prop := ∀ k, 0 < k → k < n → j ≤ (k - 1) / 2 → lt (f ((k - 1) / 2)) (f k) = false

theorem isHeap_tab : IsHeap comp (tab n f) ↔ HeapFrom comp n 0 f := by
  constructor
  · intro h k h0 hk _
    exact h k _ _ h0 (tab_getElem? (by omega)) (tab_getElem? hk)
  · intro h k a b h0 ha hb
    have hk : k < n := by
      rcases Nat.lt_or_ge k n with h1 | h1
      · exact h1
      · rw [List.getElem?_eq_none (by simpa)] at hb; cases hb
    rw [tab_getElem? (by omega)] at ha
    rw [tab_getElem? hk] at hb
    cases ha; cases hb
    exact h k h0 hk (by omega)

/-- The heap property may fail between the hole `h` and its children; but the parent of the hole is not less than these. -/
def SiftInv (lt : V → V → Bool) (n j h : Nat) (f : Nat → V) : Prop :=
  (∀ k, 0 < k → k < n → j ≤ (k - 1) / 2 → (k - 1) / 2 ≠ h → lt (f ((k - 1) / 2)) (f k) = false) ∧
  (0 < h → j ≤ (h - 1) / 2 → ∀ k, 0 < k → k < n → (k - 1) / 2 = h → lt (f ((h - 1) / 2)) (f k) = false)

theorem SiftInv.step (hsw : StrictWeak comp) (hi : SiftInv comp n j h f) (hj : j ≤ h) {s : Nat} (hs0 : 0 < s) (hsn : s < n) (hs : (s - 1) / 2 = h)
    (hlt : comp (f h) (f s) = true) (hbest : ∀ t, 0 < t → t < n → (t - 1) / 2 = h → comp (f s) (f t) = false) : SiftInv comp n j s (swapf f h s) := by
  constructor
  · intro k h0 hk hjk hne
    by_cases h1 : k = s
    · subst h1
      rw [hs, swapf_left, swapf_right]
      exact hsw.asymm hlt
    · by_cases h2 : (k - 1) / 2 = h
      · rw [h2, swapf_left, swapf_other (by omega) h1]
        exact hbest k h0 hk h2
      · by_cases h3 : k = h
        · subst h3
          rw [swapf_left, swapf_other h2 hne]
          exact hi.2 h0 hjk s hs0 hsn hs
        · rw [swapf_other h2 hne, swapf_other h3 h1]
          exact hi.1 k h0 hk hjk h2
  · intro _ _ k h0 hk hks
    rw [hs, swapf_left, swapf_other (by omega) (by omega)]
    have := hi.1 k h0 hk (by omega) (by omega)
    rwa [hks] at this

theorem SiftInv.done (hi : SiftInv comp n j h f) (hb : ∀ t, 0 < t → t < n → (t - 1) / 2 = h → comp (f h) (f t) = false) : HeapFrom comp n j f := by
  intro k h0 hk hjk
  by_cases h1 : (k - 1) / 2 = h
  · rw [h1]; exact hb k h0 hk h1
  · exact hi.1 k h0 hk hjk h1

/-- The heap property may fail between the hole `h` and its parent, which is not less than the children of the hole. -/
def PushInv (lt : V → V → Bool) (n h : Nat) (f : Nat → V) : Prop :=
  (∀ k, 0 < k → k < n → k ≠ h → lt (f ((k - 1) / 2)) (f k) = false) ∧
  (0 < h → ∀ k, 0 < k → k < n → (k - 1) / 2 = h → lt (f ((h - 1) / 2)) (f k) = false)

theorem PushInv.step (hsw : StrictWeak comp) (hi : PushInv comp n h f) (h0 : 0 < h) (hn : h < n) (hlt : comp (f ((h - 1) / 2)) (f h) = true) :
    PushInv comp n ((h - 1) / 2) (swapf f h ((h - 1) / 2)) := by
  have hp : (h - 1) / 2 < h := by omega
  constructor
  · intro k hk0 hk hne
    by_cases h1 : k = h
    · subst h1
      rw [swapf_left, swapf_right]
      exact hsw.asymm hlt
    · rw [swapf_other h1 hne]
      by_cases h2 : (k - 1) / 2 = h
      · rw [h2, swapf_left]
        exact hi.2 h0 k hk0 hk h2
      · by_cases h3 : (k - 1) / 2 = (h - 1) / 2
        · rw [h3, swapf_right]
          have h4 := hi.1 k hk0 hk h1
          rw [h3] at h4
          cases h5 : comp (f h) (f k)
          · rfl
          · rw [hsw.trans _ _ _ hlt h5] at h4; cases h4
        · rw [swapf_other h2 h3]
          exact hi.1 k hk0 hk h1
  · intro hp0 k hk0 hk hkp
    rw [swapf_other (by omega) (by omega)]
    have h4 := hi.1 ((h - 1) / 2) hp0 (by omega) (by omega)
    by_cases h1 : k = h
    · subst h1
      rw [swapf_left]
      exact h4
    · rw [swapf_other h1 (by omega)]
      have h5 := hi.1 k hk0 hk h1
      rw [hkp] at h5
      exact hsw.negtrans h4 h5

theorem PushInv.done (hi : PushInv comp n h f) (hb : 0 < h → comp (f ((h - 1) / 2)) (f h) = false) : HeapFrom comp n 0 f := by
  intro k h0 hk _
  by_cases h1 : k = h
  · subst h1; exact hb h0
  · exact hi.1 k h0 hk h1

theorem HeapFrom.top (hsw : StrictWeak comp) (hf : HeapFrom comp n 0 f) {k : Nat} (hk : k < n) : comp (f 0) (f k) = false := by
  induction k using Nat.strongRecOn with
  | _ k ih =>
    rcases Nat.eq_zero_or_pos k with rfl | h0
    · exact hsw.irrefl _
    · exact hsw.negtrans (ih ((k - 1) / 2) (by omega) (by omega)) (hf k h0 hk (by omega))

theorem HeapFrom.shrink {m : Nat} (hf : HeapFrom comp n j f) (hm : m ≤ n) : HeapFrom comp m j f := fun k h0 hk hj => hf k h0 (by omega) hj

/-! ## the functions -/

theorem children {t h : Nat} (h0 : 0 < t) (ht : (t - 1) / 2 = h) : t = 2 * h + 1 ∨ t = 2 * (h + 1) := by omega

theorem percolate_spec (hsw : StrictWeak comp) (hn : h < n) (hj : j ≤ h) (hi : SiftInv comp n j h f) :
    Triple nf (seg c i (tab n f)) (percolate c i n h comp) (fun _ => ∃ₛ g, ⌜(tab n g).Perm (tab n f) ∧ HeapFrom comp n j g⌝ ∗ seg c i (tab n g)) := by
  induction hm : n - h using Nat.strongRecOn generalizing h f with
  | _ m ih =>
    have done : (∀ t, 0 < t → t < n → (t - 1) / 2 = h → comp (f h) (f t) = false) →
        Triple nf (seg c i (tab n f)) (pure ()) (fun _ => ∃ₛ g, ⌜(tab n g).Perm (tab n f) ∧ HeapFrom comp n j g⌝ ∗ seg c i (tab n g)) := by
      intro hb
      apply Triple.ret
      xexists f
      cancel
      exact ⟨List.Perm.refl _, hi.done hb⟩
    have go : ∀ s, 0 < s → s < n → (s - 1) / 2 = h → comp (f h) (f s) = true → (∀ t, 0 < t → t < n → (t - 1) / 2 = h → comp (f s) (f t) = false) →
        Triple nf (seg c i (tab n f)) (do swp (c (i + h)) (c (i + s)); percolate c i n s comp)
          (fun _ => ∃ₛ g, ⌜(tab n g).Perm (tab n f) ∧ HeapFrom comp n j g⌝ ∗ seg c i (tab n g)) := by
      intro s hs0 hsn hs hlt hb
      refine Triple.bind (swp_tab hn hsn) ?_
      intro _
      refine Triple.post (ih (n - s) (by omega) hsn (by omega) (hi.step hsw hj hs0 hsn hs hlt hb) rfl) ?_
      intro _
      xintro g hg
      xexists g
      cancel
      exact ⟨hg.1.trans (tab_swapf_perm hn hsn), hg.2⟩
    have e1 : 2 * h + 1 ≠ h := by omega
    have e2 : 2 * (h + 1) ≠ h := by omega
    rw [percolate]
    dsimp only
    by_cases hl : 2 * h + 1 < n
    · rw [if_pos hl]
      refine cmp_reads (tab_reads hn) (tab_reads hl) ?_
      by_cases hr : 2 * (h + 1) < n
      · by_cases b1 : comp (f h) (f (2 * h + 1)) = true
        · simp only [b1, ↓reduceIte, if_pos hr]
          refine cmp_reads (tab_reads hl) (tab_reads hr) ?_
          by_cases b2 : comp (f (2 * h + 1)) (f (2 * (h + 1))) = true
          · simp only [b2, ↓reduceIte, if_pos e2]
            refine go _ (by omega) hr (by omega) (hsw.trans _ _ _ b1 b2) ?_
            intro t h0 ht hc
            rcases children h0 hc with rfl | rfl
            · exact hsw.asymm b2
            · exact hsw.irrefl _
          · rw [Bool.not_eq_true] at b2
            simp only [b2, ↓reduceIte, Bool.false_eq_true, if_pos e1]
            refine go _ (by omega) hl (by omega) b1 ?_
            intro t h0 ht hc
            rcases children h0 hc with rfl | rfl
            · exact hsw.irrefl _
            · exact b2
        · rw [Bool.not_eq_true] at b1
          simp only [b1, ↓reduceIte, Bool.false_eq_true, if_pos hr]
          refine cmp_reads (tab_reads hn) (tab_reads hr) ?_
          by_cases b2 : comp (f h) (f (2 * (h + 1))) = true
          · simp only [b2, ↓reduceIte, if_pos e2]
            refine go _ (by omega) hr (by omega) b2 ?_
            intro t h0 ht hc
            rcases children h0 hc with rfl | rfl
            · cases h5 : comp (f (2 * (h + 1))) (f (2 * h + 1))
              · rfl
              · rw [hsw.trans _ _ _ b2 h5] at b1; cases b1
            · exact hsw.irrefl _
          · rw [Bool.not_eq_true] at b2
            simp only [b2, ↓reduceIte, Bool.false_eq_true, ne_eq, not_true_eq_false]
            apply done
            intro t h0 ht hc
            rcases children h0 hc with rfl | rfl
            · exact b1
            · exact b2
      · simp only [if_neg hr, pure_bind, Bool.false_eq_true, ↓reduceIte]
        by_cases b1 : comp (f h) (f (2 * h + 1)) = true
        · simp only [b1, ↓reduceIte, if_pos e1]
          refine go _ (by omega) hl (by omega) b1 ?_
          intro t h0 ht hc
          rcases children h0 hc with rfl | rfl
          · exact hsw.irrefl _
          · omega
        · rw [Bool.not_eq_true] at b1
          simp only [b1, ↓reduceIte, Bool.false_eq_true, ne_eq, not_true_eq_false]
          apply done
          intro t h0 ht hc
          rcases children h0 hc with rfl | rfl
          · exact b1
          · omega
    · have hr : ¬ 2 * (h + 1) < n := by omega
      simp only [if_neg hl, if_neg hr, pure_bind, Bool.false_eq_true, ↓reduceIte, ne_eq, not_true_eq_false]
      apply done
      intro t h0 ht hc
      omega

theorem popLoop_spec (hsw : StrictWeak comp) (hn : h < n) (hi : SiftInv comp n 0 h f) :
    Triple nf (seg c i (tab n f)) (popLoop c i n h comp) (fun _ => ∃ₛ g, ⌜(tab n g).Perm (tab n f) ∧ HeapFrom comp n 0 g⌝ ∗ seg c i (tab n g)) := by
  induction hm : n - h using Nat.strongRecOn generalizing h f with
  | _ m ih =>
    have done : (∀ t, 0 < t → t < n → (t - 1) / 2 = h → comp (f h) (f t) = false) →
        Triple nf (seg c i (tab n f)) (pure ()) (fun _ => ∃ₛ g, ⌜(tab n g).Perm (tab n f) ∧ HeapFrom comp n 0 g⌝ ∗ seg c i (tab n g)) := by
      intro hb
      apply Triple.ret
      xexists f
      cancel
      exact ⟨List.Perm.refl _, hi.done hb⟩
    have go : ∀ s, 0 < s → s < n → (s - 1) / 2 = h → comp (f h) (f s) = true → (∀ t, 0 < t → t < n → (t - 1) / 2 = h → comp (f s) (f t) = false) →
        Triple nf (seg c i (tab n f)) (do swp (c (i + h)) (c (i + s)); popLoop c i n s comp)
          (fun _ => ∃ₛ g, ⌜(tab n g).Perm (tab n f) ∧ HeapFrom comp n 0 g⌝ ∗ seg c i (tab n g)) := by
      intro s hs0 hsn hs hlt hb
      refine Triple.bind (swp_tab hn hsn) ?_
      intro _
      refine Triple.post (ih (n - s) (by omega) hsn (hi.step hsw (by omega) hs0 hsn hs hlt hb) rfl) ?_
      intro _
      xintro g hg
      xexists g
      cancel
      exact ⟨hg.1.trans (tab_swapf_perm hn hsn), hg.2⟩
    rw [popLoop]
    by_cases hl : 2 * h + 1 < n
    · rw [if_pos hl]
      by_cases hr : 2 * (h + 1) < n
      · rw [if_pos hr]
        refine cmp_reads (tab_reads hl) (tab_reads hr) ?_
        by_cases b1 : comp (f (2 * h + 1)) (f (2 * (h + 1))) = true
        · rw [if_pos b1]
          refine cmp_reads (tab_reads hn) (tab_reads hr) ?_
          by_cases b2 : comp (f h) (f (2 * (h + 1))) = true
          · rw [if_pos b2]
            refine go _ (by omega) hr (by omega) b2 ?_
            intro t h0 ht hc
            rcases children h0 hc with rfl | rfl
            · exact hsw.asymm b1
            · exact hsw.irrefl _
          · rw [if_neg b2]
            rw [Bool.not_eq_true] at b2
            apply done
            intro t h0 ht hc
            rcases children h0 hc with rfl | rfl
            · exact hsw.negtrans b2 (hsw.asymm b1)
            · exact b2
        · rw [if_neg b1]
          rw [Bool.not_eq_true] at b1
          refine cmp_reads (tab_reads hn) (tab_reads hl) ?_
          by_cases b2 : comp (f h) (f (2 * h + 1)) = true
          · rw [if_pos b2]
            refine go _ (by omega) hl (by omega) b2 ?_
            intro t h0 ht hc
            rcases children h0 hc with rfl | rfl
            · exact hsw.irrefl _
            · exact b1
          · rw [if_neg b2]
            rw [Bool.not_eq_true] at b2
            apply done
            intro t h0 ht hc
            rcases children h0 hc with rfl | rfl
            · exact b2
            · exact hsw.negtrans b2 b1
      · rw [if_neg hr]
        refine cmp_reads (tab_reads hn) (tab_reads hl) ?_
        by_cases b2 : comp (f h) (f (2 * h + 1)) = true
        · rw [if_pos b2]
          refine go _ (by omega) hl (by omega) b2 ?_
          intro t h0 ht hc
          rcases children h0 hc with rfl | rfl
          · exact hsw.irrefl _
          · omega
        · rw [if_neg b2]
          rw [Bool.not_eq_true] at b2
          apply done
          intro t h0 ht hc
          rcases children h0 hc with rfl | rfl
          · exact b2
          · omega
    · rw [if_neg hl]
      apply done
      intro t h0 ht hc
      omega

theorem heapifyLoop_spec (hsw : StrictWeak comp) {k : Nat} (hk : k ≤ n) (hf : HeapFrom comp n k f) :
    Triple nf (seg c i (tab n f)) (heapifyLoop c i n comp k) (fun _ => ∃ₛ g, ⌜(tab n g).Perm (tab n f) ∧ HeapFrom comp n 0 g⌝ ∗ seg c i (tab n g)) := by
  induction k generalizing f with
  | zero =>
    rw [heapifyLoop]
    apply Triple.ret
    xexists f
    cancel
  | succ k ih =>
    rw [heapifyLoop]
    have hi : SiftInv comp n k k f := ⟨fun t h0 ht hj hne => hf t h0 ht (by omega), fun h0 hj => by omega⟩
    refine Triple.bind (percolate_spec hsw (by omega) (Nat.le_refl k) hi) ?_
    intro _
    xintro g hg
    refine Triple.post (ih (by omega) hg.2) ?_
    intro _
    xintro g' hg'
    xexists g'
    cancel
    exact ⟨hg'.1.trans hg.1, hg'.2⟩

theorem makeHeap_spec (hsw : StrictWeak comp) :
    Triple nf (seg c i vs) (makeHeap c i (i + vs.length) comp) (fun _ => ∃ₛ ws, ⌜ws.Perm vs ∧ IsHeap comp ws⌝ ∗ seg c i ws) := by
  unfold makeHeap
  rw [Nat.add_sub_cancel_left]
  by_cases hl : vs.length < 2
  · rw [if_pos hl]
    apply Triple.ret
    xexists vs
    cancel
    refine ⟨List.Perm.refl _, ?_⟩
    intro k a b h0 _ hb
    rw [List.getElem?_eq_none (by omega)] at hb; cases hb
  · rw [if_neg hl]
    obtain ⟨f, hf⟩ := exists_tab (vs := vs) (by intro h; simp [h] at hl)
    generalize hn : vs.length = n at *
    subst hf
    unfold heapify
    rw [Nat.add_sub_cancel_left]
    refine Triple.post (heapifyLoop_spec hsw (by omega) ?_) ?_
    · intro k h0 hk hj; omega
    · intro _
      xintro g hg
      xexists tab n g
      cancel
      exact ⟨hg.1, isHeap_tab.2 hg.2⟩

theorem popHeap_spec (hsw : StrictWeak comp) {a : V} (hh : IsHeap comp (a :: vs)) :
    Triple nf (seg c i (a :: vs)) (popHeap c i (i + (vs.length + 1)) comp) (fun _ => ∃ₛ ws, ⌜ws.Perm vs ∧ IsHeap comp ws⌝ ∗ seg c i (ws ++ [a])) := by
  unfold popHeap
  rw [Nat.add_sub_cancel_left]
  by_cases hl : vs.length + 1 < 2
  · rw [if_pos hl]
    obtain rfl : vs = [] := List.eq_nil_of_length_eq_zero (by omega)
    apply Triple.ret
    xexists []
    cancel
    refine ⟨List.Perm.refl _, ?_⟩
    intro k a b h0 _ hb
    simp at hb
  · rw [if_neg hl]
    obtain ⟨f, hf⟩ := exists_tab (vs := a :: vs) (by simp)
    have ha : a = f 0 := by
      have := congrArg (fun l => l[0]?) hf
      simp only [List.getElem?_cons_zero] at this
      rw [tab_getElem? (by simp)] at this
      exact Option.some.inj this
    rw [List.length_cons] at hf
    rw [hf] at hh ⊢
    rw [← Nat.add_assoc]
    refine dec_spec ?_
    have h1 := swp_tab (nf := nf) (c := c) (i := i) (f := f) (n := vs.length + 1) (a := 0) (b := vs.length) (by omega) (by omega)
    rw [Nat.add_zero] at h1
    refine Triple.bind h1 ?_
    intro _
    rw [tab_succ, seg_append, seg_one, tab_length, swapf_right, Nat.add_sub_cancel_left]
    have hi : SiftInv comp vs.length 0 0 (swapf f 0 vs.length) := by
      refine ⟨fun k h0 hk _ hne => ?_, by omega⟩
      rw [swapf_other (by omega) (by omega), swapf_other (by omega) (by omega)]
      exact isHeap_tab.1 hh k h0 (by omega) (by omega)
    call (popLoop_spec (nf := nf) (c := c) (i := i) (n := vs.length) (h := 0) (f := swapf f 0 vs.length) hsw (by omega) hi)
    intro _
    xintro g hg
    xexists tab vs.length g
    rw [seg_append, seg_one, tab_length, ha]
    cancel
    refine ⟨hg.1.trans ?_, isHeap_tab.2 hg.2⟩
    have h2 := tab_swapf_perm (f := f) (n := vs.length + 1) (a := 0) (b := vs.length) (by omega) (by omega)
    rw [tab_succ, ← hf, swapf_right, ← ha] at h2
    have h3 : (a :: tab vs.length (swapf f 0 vs.length)).Perm (a :: vs) := (List.perm_append_singleton a _).symm.trans h2
    exact List.Perm.cons_inv h3

/-- the function with one value changed -/
def setf (f : Nat → V) (a : Nat) (v : V) : Nat → V := fun k => if k = a then v else f k

theorem tab_setf {a : Nat} {v : V} : tab n (setf f a v) = (tab n f).set a v := by
  apply List.ext_getElem?
  intro k
  by_cases hk : k < n
  · rw [tab_getElem? hk, List.getElem?_set, tab_getElem? hk, tab_length]
    unfold setf
    by_cases h1 : k = a
    · subst h1; simp [hk]
    · simp [h1, Ne.symm h1]
  · rw [List.getElem?_eq_none (by simp; omega), List.getElem?_eq_none (by simp; omega)]

theorem wr_tab {k : Nat} {v : V} (hk : k < n) : Triple nf (seg c i (tab n f)) (wr (c (i + k)) v) (fun _ => seg c i (tab n (setf f k v))) := by
  rw [tab_setf]
  exact wr_seg (by simpa)

theorem asg_tab {k l : Nat} (hk : k < n) (hl : l < n) :
    Triple nf (seg c i (tab n f)) (asg (c (i + k)) (c (i + l))) (fun _ => seg c i (tab n (setf f k (f l)))) := by
  unfold asg
  exact ldV_reads (tab_reads hl) (wr_tab hk)

theorem setf_setf {a : Nat} {v w : V} : setf (setf f a v) a w = setf f a w := by
  funext k; simp only [setf]; split <;> rfl

theorem setf_self {a : Nat} : setf f a (f a) = f := by
  funext k; simp only [setf]; split <;> simp_all

theorem setf_same {a : Nat} {v : V} : setf f a v a = v := by simp [setf]
theorem setf_other {a k : Nat} {v : V} (h : k ≠ a) : setf f a v k = f k := by simp [setf, h]

/-- `f` is the memory, `setf f h v` the heap in the making -/
theorem pushLoop_spec (hsw : StrictWeak comp) {v : V} (hn : h < n) (hi : PushInv comp n h (setf f h v)) :
    Triple nf (seg c i (tab n f)) (pushLoop c i comp v h) (fun r => ∃ₛ g, ⌜r < n ∧ (tab n (setf g r v)).Perm (tab n (setf f h v)) ∧ HeapFrom comp n 0 (setf g r v)⌝ ∗ seg c i (tab n g)) := by
  induction h using Nat.strongRecOn generalizing f with
  | _ h ih =>
    rw [pushLoop]
    by_cases h0 : 0 < h
    · rw [if_pos h0]
      refine ldV_reads (tab_reads (k := (h - 1) / 2) (by omega)) ?_
      have hp : setf f h v ((h - 1) / 2) = f ((h - 1) / 2) := setf_other (by omega)
      by_cases hlt : comp (f ((h - 1) / 2)) v = true
      · rw [if_pos hlt]
        refine Triple.bind (asg_tab hn (by omega)) ?_
        intro _
        have he : setf (setf f h (f ((h - 1) / 2))) ((h - 1) / 2) v = swapf (setf f h v) h ((h - 1) / 2) := by
          funext k
          by_cases e1 : k = (h - 1) / 2
          · subst e1
            rw [setf_same, swapf_right, setf_same]
          · rw [setf_other e1]
            by_cases e2 : k = h
            · subst e2
              rw [setf_same, swapf_left, hp]
            · rw [setf_other e2, swapf_other e2 e1, setf_other e2]
        have hi' := hi.step hsw h0 hn (by rw [hp, setf_same]; exact hlt)
        rw [← he] at hi'
        refine Triple.post (ih ((h - 1) / 2) (by omega) (by omega) hi') ?_
        intro r
        xintro g hg
        xexists g
        cancel
        refine ⟨hg.1, hg.2.1.trans ?_, hg.2.2⟩
        rw [he]
        exact tab_swapf_perm hn (by omega)
      · rw [if_neg hlt]
        apply Triple.ret
        xexists f
        cancel
        refine ⟨hn, List.Perm.refl _, hi.done fun _ => ?_⟩
        rw [hp, setf_same]
        simpa using hlt
    · rw [if_neg h0]
      apply Triple.ret
      xexists f
      cancel
      exact ⟨hn, List.Perm.refl _, hi.done fun h => absurd h h0⟩

theorem pushHeap_spec (hsw : StrictWeak comp) {v : V} (hh : IsHeap comp vs) :
    Triple nf (seg c i (vs ++ [v])) (pushHeap c i (i + (vs.length + 1)) comp) (fun _ => ∃ₛ ws, ⌜ws.Perm (vs ++ [v]) ∧ IsHeap comp ws⌝ ∗ seg c i ws) := by
  unfold pushHeap
  rw [Nat.add_sub_cancel_left]
  by_cases hl : vs.length + 1 < 2
  · rw [if_pos hl]
    obtain rfl : vs = [] := List.eq_nil_of_length_eq_zero (by omega)
    apply Triple.ret
    xexists [v]
    cancel
    refine ⟨List.Perm.refl _, ?_⟩
    intro k a b h0 _ hb
    rw [List.getElem?_eq_none (by simp; omega)] at hb; cases hb
  · rw [if_neg hl]
    obtain ⟨f, hf⟩ := exists_tab (vs := vs ++ [v]) (by simp)
    rw [List.length_append, List.length_singleton] at hf
    have hv : f vs.length = v := by
      have := congrArg (fun l => l[vs.length]?) hf
      simp only [List.getElem?_concat_length] at this
      rw [tab_getElem? (by omega)] at this
      exact (Option.some.inj this).symm
    have hvs : vs = tab vs.length f := by
      rw [tab_succ, hv] at hf
      exact List.append_cancel_right hf
    rw [hf]
    rw [← Nat.add_assoc]
    refine dec_spec ?_
    refine ldV_reads (tab_reads (by omega)) ?_
    rw [Nat.add_sub_cancel_left, hv]
    have hfv : setf f vs.length v = f := by rw [← hv]; exact setf_self
    have hi : PushInv comp (vs.length + 1) vs.length (setf f vs.length v) := by
      rw [hfv]
      refine ⟨fun k h0 hk hne => ?_, fun _ k _ _ _ => by omega⟩
      rw [hvs] at hh
      exact isHeap_tab.1 hh k h0 (by omega) (by omega)
    refine Triple.bind (pushLoop_spec (nf := nf) (c := c) (i := i) (n := vs.length + 1) (h := vs.length) (f := f) (v := v) hsw (by omega) hi) ?_
    intro r
    xintro g hg
    refine Triple.post (wr_tab hg.1) ?_
    intro _
    xexists tab (vs.length + 1) (setf g r v)
    cancel
    refine ⟨?_, isHeap_tab.2 hg.2.2⟩
    have := hg.2.1
    rw [hfv] at this
    exact this

theorem sortHeapLoop_spec (hsw : StrictWeak comp) {A B : List V} (hA : IsHeap comp A) (hB : Sorted comp B) (hAB : ∀ a, a ∈ A → ∀ b, b ∈ B → comp b a = false) :
    Triple nf (seg c i (A ++ B)) (sortHeapLoop c i (i + A.length) comp) (fun _ => ∃ₛ ws, ⌜ws.Perm (A ++ B) ∧ Sorted comp ws⌝ ∗ seg c i ws) := by
  induction hn : A.length generalizing A B with
  | zero =>
    obtain rfl : A = [] := by cases A <;> simp_all
    rw [sortHeapLoop, if_neg (by simp)]
    apply Triple.ret
    xexists B
    cancel
  | succ m ih =>
    obtain ⟨a, A, rfl⟩ := List.exists_cons_of_length_pos (by omega : 0 < A.length)
    rw [List.length_cons] at hn
    obtain rfl : A.length = m := by omega
    rw [sortHeapLoop, if_pos (by omega), seg_append]
    call (popHeap_spec (nf := nf) (c := c) (i := i) (a := a) (vs := A) hsw hA)
    intro _
    xintro ws hws
    rw [← Nat.add_assoc]
    refine dec_spec ?_
    obtain ⟨f, hf⟩ := exists_tab (vs := a :: A) (by simp)
    have htop : ∀ x, x ∈ a :: A → comp a x = false := by
      intro x hx
      have ha : a = f 0 := by
        have := congrArg (fun l => l[0]?) hf
        simp only [List.getElem?_cons_zero] at this
        rw [tab_getElem? (by simp)] at this
        exact Option.some.inj this
      rw [hf] at hx hA
      obtain ⟨k, hk, rfl⟩ := mem_tab.1 hx
      rw [ha]
      exact (isHeap_tab.1 hA).top hsw hk
    have hl := hws.1.length_eq
    have := @ih ws (a :: B) hws.2 ?_ ?_ hl
    · refine Triple.pre ?_ (Triple.post this ?_)
      · simp only [seg_append, seg_cons, seg_nil, sep_emp, hl, List.length_cons, Nat.add_assoc]
        cancel
      · intro _
        xintro xs hx
        xexists xs
        cancel
        refine ⟨hx.1.trans ?_, hx.2⟩
        refine List.perm_middle.trans ?_
        exact List.Perm.append (hws.1.cons a) (List.Perm.refl B)
    · refine List.pairwise_cons.2 ⟨fun b hb => hAB a (by simp) b hb, hB⟩
    · intro x hx b hb
      have hx' : x ∈ a :: A := List.mem_cons_of_mem _ (hws.1.mem_iff.1 hx)
      rcases List.mem_cons.1 hb with rfl | hb
      · exact htop x hx'
      · exact hAB x hx' b hb

theorem sortHeap_spec (hsw : StrictWeak comp) (hh : IsHeap comp vs) :
    Triple nf (seg c i vs) (sortHeap c i (i + vs.length) comp) (fun _ => ∃ₛ ws, ⌜ws.Perm vs ∧ Sorted comp ws⌝ ∗ seg c i ws) := by
  unfold sortHeap
  rw [Nat.add_sub_cancel_left]
  by_cases hl : vs.length < 2
  · rw [if_pos hl]
    apply Triple.ret
    xexists vs
    cancel
    refine ⟨List.Perm.refl _, ?_⟩
    cases vs with
    | nil => exact List.Pairwise.nil
    | cons v vs =>
      obtain rfl : vs = [] := List.eq_nil_of_length_eq_zero (by simp at hl; omega)
      exact List.pairwise_singleton _ _
  · rw [if_neg hl]
    have := sortHeapLoop_spec (nf := nf) (c := c) (i := i) (A := vs) (B := []) hsw hh List.Pairwise.nil (by simp)
    simpa only [List.append_nil] using this

/-- what `algo_is_heap_until_by` finds: the end of a heap, or else the first parent that is less than one of its children -/
theorem isHeapLoop_spec {p : Nat} (hp : ∀ k, 0 < k → k < n → (k - 1) / 2 < p → comp (f ((k - 1) / 2)) (f k) = false) (hr : ∀ k, k < n → Reads P (c (i + k)) (f k)) :
    Triple nf P (isHeapLoop c i n p comp) (fun r => ⌜(r = (true, i + n) ∧ HeapFrom comp n 0 f) ∨
      (∃ q, r = (false, i + q) ∧ (∀ k, 0 < k → k < n → (k - 1) / 2 < q → comp (f ((k - 1) / 2)) (f k) = false) ∧
        ∃ k, 0 < k ∧ k < n ∧ (k - 1) / 2 = q ∧ comp (f q) (f k) = true)⌝ ∗ P) := by
  induction hm : n - p using Nat.strongRecOn generalizing p with
  | _ m ih =>
    rw [isHeapLoop]
    by_cases hl : 2 * p + 1 < n
    · rw [if_pos hl]
      refine cmp_reads (hr p (by omega)) (hr _ hl) ?_
      by_cases b1 : comp (f p) (f (2 * p + 1)) = true
      · rw [if_pos b1]
        apply Triple.ret
        cancel
        exact Or.inr ⟨p, rfl, hp, _, by omega, hl, by omega, b1⟩
      · rw [if_neg b1]
        rw [Bool.not_eq_true] at b1
        by_cases hr' : 2 * (p + 1) < n
        · rw [if_pos hr']
          refine cmp_reads (hr p (by omega)) (hr _ hr') ?_
          by_cases b2 : comp (f p) (f (2 * (p + 1))) = true
          · rw [if_pos b2]
            apply Triple.ret
            cancel
            exact Or.inr ⟨p, rfl, hp, _, by omega, hr', by omega, b2⟩
          · rw [if_neg b2]
            rw [Bool.not_eq_true] at b2
            refine ih (n - (p + 1)) (by omega) ?_ rfl
            intro k h0 hk hkp
            rcases Nat.lt_or_ge ((k - 1) / 2) p with h1 | h1
            · exact hp k h0 hk h1
            · have h2 : (k - 1) / 2 = p := by omega
              rw [h2]
              rcases children h0 h2 with rfl | rfl
              · exact b1
              · exact b2
        · rw [if_neg hr', pure_bind, if_neg (by simp)]
          refine ih (n - (p + 1)) (by omega) ?_ rfl
          intro k h0 hk hkp
          rcases Nat.lt_or_ge ((k - 1) / 2) p with h1 | h1
          · exact hp k h0 hk h1
          · have h2 : (k - 1) / 2 = p := by omega
            rw [h2]
            rcases children h0 h2 with rfl | rfl
            · exact b1
            · omega
    · rw [if_neg hl]
      apply Triple.ret
      cancel
      exact Or.inl ⟨rfl, fun k h0 hk _ => hp k h0 hk (by omega)⟩

theorem isHeap_spec (h : Rng P c i vs) : Triple nf P (isHeap c i (i + vs.length) comp) (fun r => ⌜r = true ↔ IsHeap comp vs⌝ ∗ P) := by
  unfold isHeap isHeapUntil
  simp only [bind_assoc, pure_bind]
  rw [Nat.add_sub_cancel_left]
  by_cases hne : vs = []
  · subst hne
    rw [List.length_nil, isHeapLoop, if_neg (by omega), pure_bind]
    apply Triple.ret
    cancel
    simp [IsHeap]
  obtain ⟨f, hf⟩ := exists_tab hne
  generalize hn : vs.length = n at *
  subst hf
  refine Triple.bind (isHeapLoop_spec (n := n) (f := f) (p := 0) (by omega) (fun k hk => by have := h k (by simpa); rwa [tab_getElem] at this)) ?_
  intro r
  xintro hr
  apply Triple.ret
  cancel
  rw [isHeap_tab]
  rcases hr with ⟨rfl, h1⟩ | ⟨q, rfl, h1, k, h0, hk, hkq, h2⟩
  · simp [h1]
  · have h3 : (i + q == i + n) = false := by simp; omega
    simp only [h3]
    constructor
    · intro h; cases h
    · intro h
      have := h k h0 hk (by omega)
      rw [hkq, h2] at this; cases this

end CC.Algo
