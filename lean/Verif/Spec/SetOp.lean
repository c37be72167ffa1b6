import Verif.Spec.Order
/-!
# Specification vocabulary: set operations on sorted lists (no reference to the code)

For a strict weak order two elements count as "the same" if neither is less.  `cls lt a xs` are the elements of `xs` that are the same as `a`, in their order.  A sorted list is
determined by these classes, so each operation is specified by saying what the classes of the result are.
-/
namespace CC
variable {α : Type}

/-- the elements equivalent to `a`, in order -/
def cls (lt : α → α → Bool) (a : α) (xs : List α) : List α := xs.filter (equivB lt a)

/-- union: all elements of the first list, then those of the second one beyond their number -/
def IsUnion (lt : α → α → Bool) (xs ys zs : List α) : Prop :=
  Sorted lt zs ∧ ∀ a, cls lt a zs = cls lt a xs ++ (cls lt a ys).drop (cls lt a xs).length
/-- intersection: as many elements of the first list as there are in both -/
def IsIntersection (lt : α → α → Bool) (xs ys zs : List α) : Prop :=
  Sorted lt zs ∧ ∀ a, cls lt a zs = (cls lt a xs).take (cls lt a ys).length
/-- difference: the elements of the first list beyond the number of those in the second -/
def IsDifference (lt : α → α → Bool) (xs ys zs : List α) : Prop :=
  Sorted lt zs ∧ ∀ a, cls lt a zs = (cls lt a xs).drop (cls lt a ys).length
/-- symmetric difference: the surplus of either list -/
def IsSymDifference (lt : α → α → Bool) (xs ys zs : List α) : Prop :=
  Sorted lt zs ∧ ∀ a, cls lt a zs = (cls lt a xs).drop (cls lt a ys).length ++ (cls lt a ys).drop (cls lt a xs).length
/-- every element of the second list occurs in the first one, counting multiplicities -/
def Includes (lt : α → α → Bool) (xs ys : List α) : Prop := ∀ a, (cls lt a ys).length ≤ (cls lt a xs).length

/-- what remains of the first list if every element of the second one, in order, strikes out the first remaining element that is not smaller than it -/
def struck (lt : α → α → Bool) (xs ys : List α) : List α := ys.foldl (fun zs y => zs.eraseP fun x => !lt x y) xs

/-- every element of the second list that does not lie behind all elements of the first one occurs in the first one, counting multiplicities -/
def IncludesLow (lt : α → α → Bool) (xs ys : List α) : Prop := Includes lt xs (ys.filter fun y => xs.any fun x => !lt x y)

example : struck (fun a b : Nat => decide (a < b)) [2, 3, 5, 8] [1, 5, 9] = [3, 8] := by decide

example : IsDifference (fun a b : Nat => decide (a < b)) [2, 3] [1] [2, 3] := by
  refine ⟨by simp [Sorted], fun a => ?_⟩
  by_cases h1 : a = 1
  · subst h1; rfl
  · have : cls (fun a b : Nat => decide (a < b)) a [1] = [] := by
      simp only [cls, List.filter_eq_nil_iff, List.mem_singleton, forall_eq, equivB, Bool.and_eq_true, Bool.not_eq_true', decide_eq_false_iff_not]
      omega
    rw [this]; rfl

/-! ## generic lemmas -/

theorem cls_cons {lt : α → α → Bool} {a x : α} {xs : List α} : cls lt a (x :: xs) = if equivB lt a x = true then x :: cls lt a xs else cls lt a xs := by
  simp only [cls, List.filter_cons]

/-- if the list is sorted and its head is greater than something equivalent to `a`, then nothing in it is equivalent to `a` -/
theorem cls_nil_of_lt {lt : α → α → Bool} (h : StrictWeak lt) {a x y : α} {ys : List α} (hs : Sorted lt (y :: ys)) (ha : equivB lt a x = true) (hxy : lt x y = true) :
    cls lt a (y :: ys) = [] := by
  rw [cls, List.filter_eq_nil_iff]
  intro z hz
  have hxz : lt x z = true := by
    rcases List.mem_cons.1 hz with rfl | hz
    · exact hxy
    · have := (List.pairwise_cons.1 hs).1 z hz
      cases hc : lt x z
      · have := h.negtrans hc this
        rw [hxy] at this; cases this
      · rfl
  simp only [equivB, Bool.and_eq_true, not_and, Bool.not_eq_true', Bool.not_eq_true]
  intro h1
  rw [h.equivB_left ha, hxz] at h1; cases h1

/-- all operations at once: what to do with an element that is in the first list only, in the second list only, in both -/
def setL (lt : α → α → Bool) (e1 e2 e3 : Bool) : List α → List α → List α
  | [], ys => if e2 then ys else []
  | xs, [] => if e1 then xs else []
  | x :: xs, y :: ys =>
    if lt x y then (if e1 then [x] else []) ++ setL lt e1 e2 e3 xs (y :: ys)
    else if lt y x then (if e2 then [y] else []) ++ setL lt e1 e2 e3 (x :: xs) ys
    else (if e3 then [x] else []) ++ setL lt e1 e2 e3 xs ys
termination_by xs ys => xs.length + ys.length

theorem setL_nil_left {lt : α → α → Bool} {e1 e2 e3 : Bool} {ys : List α} : setL lt e1 e2 e3 [] ys = if e2 then ys else [] := by rw [setL]
theorem setL_nil_right {lt : α → α → Bool} {e1 e2 e3 : Bool} {xs : List α} : setL lt e1 e2 e3 xs [] = if e1 then xs else [] := by
  cases xs
  · rw [setL]; cases e1 <;> cases e2 <;> rfl
  · rw [setL]; simp
theorem setL_cons {lt : α → α → Bool} {e1 e2 e3 : Bool} {x y : α} {xs ys : List α} : setL lt e1 e2 e3 (x :: xs) (y :: ys) =
    if lt x y then (if e1 then [x] else []) ++ setL lt e1 e2 e3 xs (y :: ys)
    else if lt y x then (if e2 then [y] else []) ++ setL lt e1 e2 e3 (x :: xs) ys
    else (if e3 then [x] else []) ++ setL lt e1 e2 e3 xs ys := by rw [setL]

theorem setInd {lt : α → α → Bool} {motive : List α → List α → Prop} (case1 : ∀ ys, motive [] ys) (case2 : ∀ xs, motive xs [])
    (case3 : ∀ x xs y ys, lt x y = true → motive xs (y :: ys) → motive (x :: xs) (y :: ys))
    (case4 : ∀ x xs y ys, ¬ lt x y = true → lt y x = true → motive (x :: xs) ys → motive (x :: xs) (y :: ys))
    (case5 : ∀ x xs y ys, ¬ lt x y = true → ¬ lt y x = true → motive xs ys → motive (x :: xs) (y :: ys)) (xs ys : List α) : motive xs ys := by
  induction hn : xs.length + ys.length using Nat.strongRecOn generalizing xs ys with
  | _ n ih =>
    cases xs with
    | nil => exact case1 _
    | cons x xs =>
      cases ys with
      | nil => exact case2 _
      | cons y ys =>
        simp only [List.length_cons] at hn
        by_cases h : lt x y = true
        · exact case3 _ _ _ _ h (ih _ (by simp only [List.length_cons]; omega) _ _ rfl)
        · by_cases h' : lt y x = true
          · exact case4 _ _ _ _ h h' (ih _ (by simp only [List.length_cons]; omega) _ _ rfl)
          · exact case5 _ _ _ _ h h' (ih _ (by omega) _ _ rfl)

theorem setL_mem {lt : α → α → Bool} {e1 e2 e3 : Bool} {xs ys : List α} {z : α} (hz : z ∈ setL lt e1 e2 e3 xs ys) : z ∈ xs ∨ z ∈ ys := by
  induction xs, ys using setInd (lt := lt) with
  | case1 ys => rw [setL_nil_left] at hz; split at hz <;> simp_all
  | case2 xs => rw [setL_nil_right] at hz; split at hz <;> simp_all
  | case3 x xs y ys h ih =>
    rw [setL_cons, if_pos h] at hz
    rcases List.mem_append.1 hz with h1 | h1
    · split at h1 <;> simp_all
    · rcases ih h1 with h2 | h2
      · exact Or.inl (List.mem_cons_of_mem _ h2)
      · exact Or.inr h2
  | case4 x xs y ys h h' ih =>
    rw [setL_cons, if_neg h, if_pos h'] at hz
    rcases List.mem_append.1 hz with h1 | h1
    · split at h1 <;> simp_all
    · rcases ih h1 with h2 | h2
      · exact Or.inl h2
      · exact Or.inr (List.mem_cons_of_mem _ h2)
  | case5 x xs y ys h h' ih =>
    rw [setL_cons, if_neg h, if_neg h'] at hz
    rcases List.mem_append.1 hz with h1 | h1
    · split at h1 <;> simp_all
    · rcases ih h1 with h2 | h2
      · exact Or.inl (List.mem_cons_of_mem _ h2)
      · exact Or.inr (List.mem_cons_of_mem _ h2)

theorem sorted_opt {lt : α → α → Bool} {b : Bool} {x : α} {zs : List α} (hs : Sorted lt zs) (hx : ∀ z, z ∈ zs → lt z x = false) :
    Sorted lt ((if b then [x] else []) ++ zs) := by
  cases b
  · exact hs
  · exact List.pairwise_cons.2 ⟨hx, hs⟩

theorem setL_sorted {lt : α → α → Bool} (hsw : StrictWeak lt) {e1 e2 e3 : Bool} {xs ys : List α} (hx : Sorted lt xs) (hy : Sorted lt ys) :
    Sorted lt (setL lt e1 e2 e3 xs ys) := by
  induction xs, ys using setInd (lt := lt) with
  | case1 ys => rw [setL_nil_left]; split; exact hy; exact List.Pairwise.nil
  | case2 xs => rw [setL_nil_right]; split; exact hx; exact List.Pairwise.nil
  | case3 x xs y ys h ih =>
    rw [setL_cons, if_pos h]
    have hx' := List.pairwise_cons.1 hx
    have hy' := List.pairwise_cons.1 hy
    refine sorted_opt (ih hx'.2 hy) ?_
    intro z hz
    rcases setL_mem hz with h1 | h1
    · exact hx'.1 z h1
    · rcases List.mem_cons.1 h1 with rfl | h1
      · exact hsw.asymm h
      · exact hsw.negtrans (hy'.1 z h1) (hsw.asymm h)
  | case4 x xs y ys h h' ih =>
    rw [setL_cons, if_neg h, if_pos h']
    have hx' := List.pairwise_cons.1 hx
    have hy' := List.pairwise_cons.1 hy
    refine sorted_opt (ih hx hy'.2) ?_
    intro z hz
    rcases setL_mem hz with h1 | h1
    · rcases List.mem_cons.1 h1 with rfl | h1
      · exact hsw.asymm h'
      · exact hsw.negtrans (hx'.1 z h1) (hsw.asymm h')
    · exact hy'.1 z h1
  | case5 x xs y ys h h' ih =>
    rw [setL_cons, if_neg h, if_neg h']
    rw [Bool.not_eq_true] at h h'
    have hx' := List.pairwise_cons.1 hx
    have hy' := List.pairwise_cons.1 hy
    refine sorted_opt (ih hx'.2 hy'.2) ?_
    intro z hz
    rcases setL_mem hz with h1 | h1
    · exact hx'.1 z h1
    · exact hsw.negtrans (hy'.1 z h1) h'

theorem cls_append {lt : α → α → Bool} {a : α} {xs ys : List α} : cls lt a (xs ++ ys) = cls lt a xs ++ cls lt a ys := List.filter_append ..

theorem equivB_comm {lt : α → α → Bool} {a b : α} : equivB lt a b = equivB lt b a := by simp only [equivB, Bool.and_comm]

theorem setL_cls {lt : α → α → Bool} (hsw : StrictWeak lt) {e1 e2 e3 : Bool} {xs ys : List α} (hx : Sorted lt xs) (hy : Sorted lt ys) (a : α) :
    cls lt a (setL lt e1 e2 e3 xs ys) = (if e3 then (cls lt a xs).take (cls lt a ys).length else []) ++ (if e1 then (cls lt a xs).drop (cls lt a ys).length else []) ++
      (if e2 then (cls lt a ys).drop (cls lt a xs).length else []) := by
  induction xs, ys using setInd (lt := lt) with
  | case1 ys => rw [setL_nil_left]; cases e1 <;> cases e2 <;> cases e3 <;> simp [cls]
  | case2 xs => rw [setL_nil_right]; cases e1 <;> cases e2 <;> cases e3 <;> simp [cls]
  | case3 x xs y ys h ih =>
    rw [setL_cons, if_pos h, cls_append, ih (List.pairwise_cons.1 hx).2 hy]
    by_cases hax : equivB lt a x = true
    · rw [cls_nil_of_lt hsw hy hax h, cls_cons (x := x), if_pos hax]
      have : cls lt a [x] = [x] := by rw [cls_cons, if_pos hax]; rfl
      cases e1 <;> cases e2 <;> cases e3 <;> simp [this] <;> rfl
    · rw [cls_cons (x := x), if_neg hax]
      have : cls lt a [x] = [] := by rw [cls_cons, if_neg hax]; rfl
      cases e1 <;> simp [this] <;> rfl
  | case4 x xs y ys h h' ih =>
    rw [setL_cons, if_neg h, if_pos h', cls_append, ih hx (List.pairwise_cons.1 hy).2]
    by_cases hay : equivB lt a y = true
    · rw [cls_nil_of_lt hsw hx hay h', cls_cons (x := y), if_pos hay]
      have : cls lt a [y] = [y] := by rw [cls_cons, if_pos hay]; rfl
      cases e1 <;> cases e2 <;> cases e3 <;> simp [this] <;> rfl
    · rw [cls_cons (x := y), if_neg hay]
      have : cls lt a [y] = [] := by rw [cls_cons, if_neg hay]; rfl
      cases e2 <;> simp [this] <;> rfl
  | case5 x xs y ys h h' ih =>
    rw [setL_cons, if_neg h, if_neg h', cls_append, ih (List.pairwise_cons.1 hx).2 (List.pairwise_cons.1 hy).2]
    rw [Bool.not_eq_true] at h h'
    have hxy : equivB lt x y = true := by simp [equivB, h, h']
    have heq : equivB lt a x = equivB lt a y := by
      simp only [equivB, hsw.equivB_left hxy, hsw.equivB_right hxy]
    by_cases hax : equivB lt a x = true
    · have hay := heq ▸ hax
      rw [cls_cons (x := x), if_pos hax, cls_cons (x := y), if_pos hay]
      have : cls lt a [x] = [x] := by rw [cls_cons, if_pos hax]; rfl
      cases e1 <;> cases e2 <;> cases e3 <;> simp [this] <;> rfl
    · have hay : ¬ equivB lt a y = true := heq ▸ hax
      rw [cls_cons (x := x), if_neg hax, cls_cons (x := y), if_neg hay]
      have : cls lt a [x] = [] := by rw [cls_cons, if_neg hax]; rfl
      cases e3 <;> simp [this] <;> rfl

end CC
