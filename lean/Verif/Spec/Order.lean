/-!
# Specification vocabulary: orders, sortedness, stability

These definitions are used to *state* properties; they do not refer to any model.
-/
namespace CC

/-- `lt` is a strict weak order (what the library calls a comparison, `c_compare`). -/
structure StrictWeak {α : Type} (lt : α → α → Bool) : Prop where
  irrefl : ∀ a, lt a a = false
  trans : ∀ a b c, lt a b = true → lt b c = true → lt a c = true
  incomp_trans : ∀ a b c, (lt a b = false ∧ lt b a = false) → (lt b c = false ∧ lt c b = false) →
    (lt a c = false ∧ lt c a = false)

/-- No element is followed (at any distance) by a smaller one. -/
def Sorted {α : Type} (lt : α → α → Bool) (xs : List α) : Prop := xs.Pairwise fun a b => lt b a = false

/-- Equivalent under the order: neither is smaller. -/
def equivB {α : Type} (lt : α → α → Bool) (a b : α) : Bool := !lt a b && !lt b a

/-- `ys` is a stable rearrangement of `xs`: for every `a`, the elements equivalent to `a` occur in `ys`
in the same order as in `xs`. -/
def StableOf {α : Type} (lt : α → α → Bool) (xs ys : List α) : Prop :=
  ∀ a, ys.filter (equivB lt a) = xs.filter (equivB lt a)

/-- dictionary order: the first position in which the lists are not equivalent decides; a proper prefix is smaller -/
inductive LexLt {α : Type} (lt : α → α → Bool) : List α → List α → Prop
  | nil {b : α} {bs : List α} : LexLt lt [] (b :: bs)
  | head {a b : α} {as bs : List α} (h : lt a b = true) : LexLt lt (a :: as) (b :: bs)
  | tail {a b : α} {as bs : List α} (h1 : lt a b = false) (h2 : lt b a = false) (h3 : LexLt lt as bs) : LexLt lt (a :: as) (b :: bs)

namespace StrictWeak
variable {α β : Type} {lt : α → α → Bool}

theorem asymm (h : StrictWeak lt) {a b : α} (hab : lt a b = true) : lt b a = false := by
  cases hba : lt b a
  · rfl
  · have := h.trans _ _ _ hab hba
    rw [h.irrefl] at this; cases this

theorem negtrans (h : StrictWeak lt) {a b c : α} (hab : lt a b = false) (hbc : lt b c = false) : lt a c = false := by
  cases hac : lt a c
  · rfl
  · exfalso
    cases hba : lt b a
    · cases hcb : lt c b
      · have := (h.incomp_trans a b c ⟨hab, hba⟩ ⟨hbc, hcb⟩).1
        rw [hac] at this; cases this
      · have := h.trans _ _ _ hac hcb
        rw [hab] at this; cases this
    · have := h.trans _ _ _ hba hac
      rw [hbc] at this; cases this

theorem comap (h : StrictWeak lt) (f : β → α) : StrictWeak (fun a b => lt (f a) (f b)) :=
  ⟨fun _ => h.irrefl _, fun _ _ _ => h.trans _ _ _, fun _ _ _ => h.incomp_trans _ _ _⟩

theorem equivB_left (h : StrictWeak lt) {a b : α} (hb : equivB lt a b = true) (c : α) : lt a c = lt b c := by
  simp only [equivB, Bool.and_eq_true, Bool.not_eq_true'] at hb
  cases hbc : lt b c
  · exact h.negtrans hb.1 hbc
  · cases hac : lt a c
    · have := h.negtrans hb.2 hac
      rw [hbc] at this; cases this
    · rfl

theorem equivB_right (h : StrictWeak lt) {a b : α} (hb : equivB lt a b = true) (c : α) : lt c a = lt c b := by
  simp only [equivB, Bool.and_eq_true, Bool.not_eq_true'] at hb
  cases hbc : lt c b
  · exact h.negtrans hbc hb.2
  · cases hac : lt c a
    · have := h.negtrans hac hb.1
      rw [hbc] at this; cases this
    · rfl
end StrictWeak

theorem strictWeak_nat : StrictWeak (fun a b : Nat => decide (a < b)) := by
  constructor <;> simp <;> omega

/-! ### merging -/

variable {α : Type}

/-- stable merge: elements of `ys` go before elements of `xs` only when strictly smaller -/
def mergeL (lt : α → α → Bool) (xs ys : List α) : List α := List.merge xs ys fun x y => !lt y x

theorem mergeL_nil_left (lt : α → α → Bool) (ys : List α) : mergeL lt [] ys = ys := by simp [mergeL]
theorem mergeL_nil_right (lt : α → α → Bool) (xs : List α) : mergeL lt xs [] = xs := by simp [mergeL]
theorem mergeL_cons (lt : α → α → Bool) (x y : α) (xs ys : List α) :
    mergeL lt (x :: xs) (y :: ys) =
      if lt y x then y :: mergeL lt (x :: xs) ys else x :: mergeL lt xs (y :: ys) := by
  simp only [mergeL, List.cons_merge_cons]
  cases lt y x <;> simp

theorem mergeL_perm (lt : α → α → Bool) (xs ys : List α) : (mergeL lt xs ys).Perm (xs ++ ys) :=
  List.merge_perm_append _

theorem mergeL_sorted {lt : α → α → Bool} (h : StrictWeak lt) {xs ys : List α} (hx : Sorted lt xs)
    (hy : Sorted lt ys) : Sorted lt (mergeL lt xs ys) := by
  have := List.pairwise_merge (le := fun x y => !lt y x) (l₁ := xs) (l₂ := ys)
    (by intro a b c hab hbc; simp only [Bool.not_eq_true'] at *; exact h.negtrans hbc hab)
    (by intro a b
        simp only [Bool.or_eq_true, Bool.not_eq_true']
        cases hba : lt b a
        · simp
        · right; exact h.asymm hba)
    (by simpa [Sorted] using hx) (by simpa [Sorted] using hy)
  simpa [Sorted, mergeL] using this

theorem mergeL_length (lt : α → α → Bool) (xs ys : List α) : (mergeL lt xs ys).length = xs.length + ys.length := by
  simpa using (mergeL_perm lt xs ys).length_eq

/-- merging sorted lists is stable -/
theorem mergeL_stable {lt : α → α → Bool} (h : StrictWeak lt) {xs ys : List α} (hx : Sorted lt xs) :
    StableOf lt (xs ++ ys) (mergeL lt xs ys) := by
  intro a
  induction xs generalizing ys with
  | nil => simp [mergeL_nil_left]
  | cons x xs ihx =>
    induction ys with
    | nil => simp [mergeL_nil_right]
    | cons y ys ihy =>
      rw [mergeL_cons]
      split
      · rename_i hyx
        rw [List.filter_cons, ihy]
        by_cases hay : equivB lt a y
        · -- no element of `x :: xs` is equivalent to `y`
          have hnone : (x :: xs).filter (equivB lt a) = [] := by
            rw [List.filter_eq_nil_iff]
            intro z hz
            have hzy : lt y z = true := by
              rcases List.mem_cons.1 hz with rfl | hz
              · exact hyx
              · have := (List.pairwise_cons.1 hx).1 z hz
                cases hyz : lt y z
                · have := h.negtrans hyz this
                  rw [hyx] at this; cases this
                · rfl
            simp only [equivB, Bool.and_eq_true, not_and, Bool.not_eq_true', Bool.not_eq_true]
            intro hz1
            rw [h.equivB_left hay, hzy] at hz1; cases hz1
          simp only [List.filter_append, hnone, List.nil_append, List.filter_cons]
        · simp only [List.filter_append, hay, Bool.false_eq_true, if_false, List.filter_cons]
      · rw [List.filter_cons, ihx (List.Pairwise.of_cons hx), List.cons_append, List.filter_cons]

theorem StableOf.trans {lt : α → α → Bool} {xs ys zs : List α} (h₁ : StableOf lt xs ys) (h₂ : StableOf lt ys zs) :
    StableOf lt xs zs := fun a => (h₂ a).trans (h₁ a)
theorem StableOf.refl (lt : α → α → Bool) (xs : List α) : StableOf lt xs xs := fun _ => rfl
theorem StableOf.append {lt : α → α → Bool} {xs ys xs' ys' : List α} (h₁ : StableOf lt xs ys)
    (h₂ : StableOf lt xs' ys') : StableOf lt (xs ++ xs') (ys ++ ys') := fun a => by
  rw [List.filter_append, List.filter_append, h₁ a, h₂ a]

/-- Keep the first element of every maximal run, where a run continues as long as the elements are related
(`p`) to its first element. -/
def uniqBy (p : α → α → Bool) : List α → List α
  | [] => []
  | x :: ys => x :: uniqBy p (ys.dropWhile (p x))
termination_by xs => xs.length
decreasing_by
  have := (List.dropWhile_sublist (l := ys) (p x)).length_le
  simp; omega

theorem uniqBy_nil (p : α → α → Bool) : uniqBy p [] = [] := by rw [uniqBy]
theorem uniqBy_cons (p : α → α → Bool) (x : α) (ys : List α) :
    uniqBy p (x :: ys) = x :: uniqBy p (ys.dropWhile (p x)) := by rw [uniqBy]

theorem uniqBy_map {β : Type} (f : β → α) (p : α → α → Bool) (ys : List β) :
    uniqBy p (ys.map f) = (uniqBy (fun a b => p (f a) (f b)) ys).map f := by
  induction h : ys.length using Nat.strongRecOn generalizing ys with
  | _ n ih =>
    cases ys with
    | nil => simp [uniqBy_nil]
    | cons y ys =>
      rw [List.map_cons, uniqBy_cons, uniqBy_cons, List.map_cons, List.dropWhile_map]
      rw [ih _ _ _ rfl]
      · rfl
      · have := (List.dropWhile_sublist (l := ys) (p (f y) ∘ f)).length_le
        simp at h; omega

theorem uniqBy_sublist (p : α → α → Bool) (ys : List α) : (uniqBy p ys).Sublist ys := by
  induction h : ys.length using Nat.strongRecOn generalizing ys with
  | _ n ih =>
    cases ys with
    | nil => simp [uniqBy_nil]
    | cons y ys =>
      rw [uniqBy_cons]
      have h1 := List.dropWhile_sublist (l := ys) (p y)
      exact ((ih _ (by have := h1.length_le; simp at h; omega) _ rfl).trans h1).cons_cons _

/-- no two neighbours of the result are related -/
theorem uniqBy_adjacent (p : α → α → Bool) (ys : List α) :
    ∀ X a b Y, uniqBy p ys = X ++ a :: b :: Y → p a b = false := by
  induction h : ys.length using Nat.strongRecOn generalizing ys with
  | _ n ih =>
    intro X a b Y he
    cases ys with
    | nil => simp [uniqBy_nil] at he
    | cons y ys =>
      rw [uniqBy_cons] at he
      have h1 := List.dropWhile_sublist (l := ys) (p y)
      cases X with
      | cons x X =>
        simp only [List.cons_append, List.cons.injEq] at he
        exact ih _ (by have := h1.length_le; simp at h; omega) _ rfl X a b Y he.2
      | nil =>
        simp only [List.nil_append, List.cons.injEq] at he
        obtain ⟨rfl, he⟩ := he
        cases hd : ys.dropWhile (p y) with
        | nil => rw [hd, uniqBy_nil] at he; cases he
        | cons z zs =>
          rw [hd, uniqBy_cons] at he
          simp only [List.cons.injEq] at he
          obtain ⟨rfl, _⟩ := he
          have := List.head?_dropWhile_not (p y) ys
          rw [hd] at this
          simpa using this

end CC
