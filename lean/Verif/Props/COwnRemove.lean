import Verif.Info.OwnSRemove
import Verif.Props.COwnSList
/-!
# Property C99: removing elements that own something from lists and forward lists

As C97 and C98 for `remove_if`, `remove`, `unique_if` and `unique`.  The client's predicate is an arbitrary program that answers a question `p` about the values of the elements it is given, reading whatever they own, and that
may keep data `D` of its own (`Asks`, `Asks2`, Verif/Info/OwnRemove.lean).  `uniqBy` (Verif/Spec/Order.lean) keeps the first element of every run of elements related to its first one.
-/
namespace CC.Info
open CC.Tac
open CC.CList (Elem nodes vals)
variable {V W α β : Type} {nf : Prop} {C : Funs V} {i : Table} {t : Addr} {A D R : HProp V} {Own : Addr → HProp V} {e : ElemSpec nf (ops C i) W} {l a s : Addr} {xs : List (Elem W)}

theorem kept {p : W → Bool} {xs : List (Elem W)} : vals (xs.filter fun x => !p x.val) = (vals xs).filter fun w => !p w := by
  rw [vals, vals, List.filter_map]
  rfl

theorem runs {p : W → W → Bool} : ∀ {n : Nat} {xs : List (Elem W)}, xs.length = n → vals (uniqBy (fun a b => p a.val b.val) xs) = uniqBy p (vals xs) := by
  intro n
  induction n using Nat.strongRecOn with
  | _ n ih =>
    intro xs hn
    cases xs with
    | nil => simp [uniqBy_nil]
    | cons x xs =>
      rw [uniqBy_cons, vals, vals, List.map_cons, List.map_cons, uniqBy_cons, List.dropWhile_map]
      have h1 := (List.dropWhile_sublist (l := xs) (fun y => p x.val y.val)).length_le
      simp only [List.length_cons] at hn
      exact congrArg _ (ih _ (by omega) rfl)

/-- `c_list_remove_if` removes exactly the elements the predicate is true of: they are destroyed and their storage goes back to their allocator; the others stay where they are, in order.
The predicate is asked about every element while the element is still there, and the client's data is left to it. -/
theorem C99_list_remove_if {pred : Loc → M V Bool} {p : W → Bool} (ha : Storage nf C i A Own) (hc : Calls i) (ht : t ≠ 0) (hp : Asks e D pred p) :
    Triple nf (A ∗ info t i ∗ L.isList e Own l s t xs ∗ D ∗ R) (L.removeIf C l (some pred))
      (fun _ => ∃ₛ ys, ⌜ys = (xs.filter fun x => !p x.val) ∧ vals ys = (vals xs).filter fun w => !p w⌝ ∗ A ∗ info t i ∗ L.isList e Own l s t ys ∗ D ∗ R) := by
  refine Triple.call_frame (L.removeIf_spec ha hc ht hp) (R := R) (by cancel) fun _ => ?_
  apply ent_ex_right (xs.filter fun x => !p x.val)
  cancel
  exact ⟨rfl, kept⟩

/-- … and `c_slist_remove_if`. -/
theorem C99_slist_remove_if {pred : Loc → M V Bool} {p : W → Bool} (ha : Storage nf C i A Own) (hc : Calls i) (ht : t ≠ 0) (hp : Asks e D pred p) :
    Triple nf (S.isL e Own l a s t xs ∗ A ∗ info t i ∗ D ∗ R) (S.removeIf C l (some pred))
      (fun _ => ∃ₛ ys, ⌜ys = (xs.filter fun x => !p x.val) ∧ vals ys = (vals xs).filter fun w => !p w⌝ ∗ S.isL e Own l a s t ys ∗ A ∗ info t i ∗ D ∗ R) := by
  refine Triple.call_frame (S.removeIf_spec ha hc ht hp) (R := R) (by cancel) fun _ => ?_
  apply ent_ex_right (xs.filter fun x => !p x.val)
  cancel
  exact ⟨rfl, kept⟩

/-- `c_list_unique_if` keeps the first element of every run of elements related to its first one; the others are destroyed and their storage goes back to their allocator. -/
theorem C99_list_unique_if {pred : Loc → Loc → M V Bool} {p : W → W → Bool} (ha : Storage nf C i A Own) (hc : Calls i) (ht : t ≠ 0) (hp : Asks2 e D pred p) :
    Triple nf (A ∗ info t i ∗ L.isList e Own l s t xs ∗ D ∗ R) (L.uniqueIf C l (some pred))
      (fun _ => ∃ₛ ys, ⌜ys = uniqBy (fun x y => p x.val y.val) xs ∧ vals ys = uniqBy p (vals xs)⌝ ∗ A ∗ info t i ∗ L.isList e Own l s t ys ∗ D ∗ R) := by
  refine Triple.call_frame (L.uniqueIf_spec ha hc ht hp) (R := R) (by cancel) fun _ => ?_
  apply ent_ex_right (uniqBy (fun x y => p x.val y.val) xs)
  cancel
  exact ⟨rfl, runs rfl⟩

/-- … and `c_slist_unique_if`. -/
theorem C99_slist_unique_if {pred : Loc → Loc → M V Bool} {p : W → W → Bool} (ha : Storage nf C i A Own) (hc : Calls i) (ht : t ≠ 0) (hp : Asks2 e D pred p) :
    Triple nf (S.isL e Own l a s t xs ∗ A ∗ info t i ∗ D ∗ R) (S.uniqueIf C l (some pred))
      (fun _ => ∃ₛ ys, ⌜ys = uniqBy (fun x y => p x.val y.val) xs ∧ vals ys = uniqBy p (vals xs)⌝ ∗ S.isL e Own l a s t ys ∗ A ∗ info t i ∗ D ∗ R) := by
  refine Triple.call_frame (S.uniqueIf_spec ha hc ht hp) (R := R) (by cancel) fun _ => ?_
  apply ent_ex_right (uniqBy (fun x y => p x.val y.val) xs)
  cancel
  exact ⟨rfl, runs rfl⟩

/-- `c_list_remove` asks the type's `equal` function about every element and the given object, which may own something itself and keeps its value: the elements equal to it are removed likewise. -/
theorem C99_list_remove {Q : Nat → Loc → Loc → M V Bool} {p : W → W → Bool} {value : Loc} {v : W} (ha : Storage nf C i A Own) (hc : Calls i) (ht : t ≠ 0) (hq : i.equal ≠ 0)
    (hp : Asks2 e D (Q i.equal) p) (hv : value.1 ≠ 0) :
    Triple nf (A ∗ info t i ∗ L.isList e Own l s t xs ∗ D ∗ cell e value v ∗ R) (L.remove C Q l value)
      (fun _ => ∃ₛ ys, ⌜ys = (xs.filter fun x => !p x.val v) ∧ vals ys = (vals xs).filter fun w => !p w v⌝ ∗ A ∗ info t i ∗ L.isList e Own l s t ys ∗ D ∗ cell e value v ∗ R) := by
  refine Triple.call_frame (L.remove_spec ha hc ht hq hp hv) (R := R) (by cancel) fun _ => ?_
  apply ent_ex_right (xs.filter fun x => !p x.val v)
  cancel
  exact ⟨rfl, kept (p := fun w => p w v)⟩

/-- … and `c_slist_remove`. -/
theorem C99_slist_remove {Q : Nat → Loc → Loc → M V Bool} {p : W → W → Bool} {value : Loc} {v : W} (ha : Storage nf C i A Own) (hc : Calls i) (ht : t ≠ 0) (hq : i.equal ≠ 0)
    (hp : Asks2 e D (Q i.equal) p) (hv : value.1 ≠ 0) :
    Triple nf (S.isL e Own l a s t xs ∗ A ∗ info t i ∗ D ∗ cell e value v ∗ R) (S.remove C Q l value)
      (fun _ => ∃ₛ ys, ⌜ys = (xs.filter fun x => !p x.val v) ∧ vals ys = (vals xs).filter fun w => !p w v⌝ ∗ S.isL e Own l a s t ys ∗ A ∗ info t i ∗ D ∗ cell e value v ∗ R) := by
  refine Triple.call_frame (S.remove_spec ha hc ht hq hp hv) (R := R) (by cancel) fun _ => ?_
  apply ent_ex_right (xs.filter fun x => !p x.val v)
  cancel
  exact ⟨rfl, kept (p := fun w => p w v)⟩

/-- `c_list_unique` is `c_list_unique_if` with the type's `equal` function. -/
theorem C99_list_unique {Q : Nat → Loc → Loc → M V Bool} {p : W → W → Bool} (ha : Storage nf C i A Own) (hc : Calls i) (ht : t ≠ 0) (hq : i.equal ≠ 0) (hp : Asks2 e D (Q i.equal) p) :
    Triple nf (A ∗ info t i ∗ L.isList e Own l s t xs ∗ D ∗ R) (L.unique C Q l)
      (fun _ => ∃ₛ ys, ⌜ys = uniqBy (fun x y => p x.val y.val) xs ∧ vals ys = uniqBy p (vals xs)⌝ ∗ A ∗ info t i ∗ L.isList e Own l s t ys ∗ D ∗ R) := by
  refine Triple.call_frame (L.unique_spec ha hc ht hq hp) (R := R) (by cancel) fun _ => ?_
  apply ent_ex_right (uniqBy (fun x y => p x.val y.val) xs)
  cancel
  exact ⟨rfl, runs rfl⟩

/-- … and `c_slist_unique`. -/
theorem C99_slist_unique {Q : Nat → Loc → Loc → M V Bool} {p : W → W → Bool} (ha : Storage nf C i A Own) (hc : Calls i) (ht : t ≠ 0) (hq : i.equal ≠ 0) (hp : Asks2 e D (Q i.equal) p) :
    Triple nf (S.isL e Own l a s t xs ∗ A ∗ info t i ∗ D ∗ R) (S.unique C Q l)
      (fun _ => ∃ₛ ys, ⌜ys = uniqBy (fun x y => p x.val y.val) xs ∧ vals ys = uniqBy p (vals xs)⌝ ∗ S.isL e Own l a s t ys ∗ A ∗ info t i ∗ D ∗ R) := by
  refine Triple.call_frame (S.unique_spec ha hc ht hq hp) (R := R) (by cancel) fun _ => ?_
  apply ent_ex_right (uniqBy (fun x y => p x.val y.val) xs)
  cancel
  exact ⟨rfl, runs rfl⟩

/-- Without a predicate nothing happens. -/
theorem C99_list_none : Triple nf (L.isList e Own l s t xs ∗ R) (do L.removeIf C l none; L.uniqueIf C l none) (fun _ => L.isList e Own l s t xs ∗ R) := by
  unfold L.removeIf L.uniqueIf
  simp only [bind_assoc]
  refine Triple.bind_frame (L.empty_spec (e := e) (Own := Own) (l := l) (s := s) (t := t) (xs := xs)) (R := R) (ent_refl _) fun r => ?_
  xsub
  simp only [ite_self, pure_bind]
  refine Triple.bind_frame (L.empty_spec (e := e) (Own := Own) (l := l) (s := s) (t := t) (xs := xs)) (R := R) (ent_refl _) fun r => ?_
  xsub
  split
  · exact Triple.ret (by cancel)
  · refine Triple.bind_frame (L.size_spec (e := e) (Own := Own) (l := l) (s := s) (t := t) (xs := xs)) (R := R) (ent_refl _) fun r => ?_
    xsub
    exact Triple.ret (by cancel)

theorem C99_slist_none : Triple nf (S.isL e Own l a s t xs ∗ R) (do S.removeIf C l none; S.uniqueIf C l none) (fun _ => S.isL e Own l a s t xs ∗ R) := by
  unfold S.removeIf S.uniqueIf
  simp only [bind_assoc]
  refine S.cps S.empty_spec ?_
  simp only [ite_self, pure_bind]
  refine S.cps S.empty_spec ?_
  cases xs with
  | nil => simp only [List.isEmpty_nil, ↓reduceIte]; exact Triple.ret (ent_refl _)
  | cons x xs =>
    rw [if_neg (by simp)]
    refine S.single_spec ?_
    exact Triple.ret (ent_refl _)

/-! ## an example: elements that own a box, with predicates that open it and count their calls -/

/-- open the boxes at `a` and `b`, count the call at `c`, compare the contents -/
def sameBox (ty : Ty V) (c : Loc) (f : V → V → Bool) (a b : Loc) : M V Bool := do
  let p ← ldN a
  let v ← ldV (p, 1)
  let q ← ldN b
  let w ← ldV (q, 1)
  let n ← ldN c
  stN c (n + 1)
  pure (f v w)

theorem asks_sameBox (ty : Ty V) (c : Loc) (f : V → V → Bool) : Asks2 (i := ⟨1, 8, 2, 3, 4, 9, 5, 0, 0⟩) (C := L.marked ty) (boxSpec ty) (hex fun n : Nat => pts c (.num n)) (sameBox ty c f) f := by
  intro a b u w
  unfold sameBox cell boxSpec
  dsimp only
  refine Triple.ex_left' fun n => ?_
  xintro x p hx
  subst hx
  xintro y q hy
  subst hy
  steps
  apply Triple.ret
  refine ent_pure_right rfl ?_
  xexists n + 1
  xexists .num p
  xexists p
  xexists .num q
  xexists q
  cancel

/-- the same for one box -/
def inBox (ty : Ty V) (c : Loc) (f : V → Bool) (a : Loc) : M V Bool := do
  let p ← ldN a
  let v ← ldV (p, 1)
  let n ← ldN c
  stN c (n + 1)
  pure (f v)

example (ty : Ty V) (c : Loc) (f : V → Bool) : Asks (i := ⟨1, 8, 2, 3, 4, 9, 5, 0, 0⟩) (C := L.marked ty) (boxSpec ty) (hex fun n : Nat => pts c (.num n)) (inBox ty c f) f := by
  intro a u
  unfold inBox cell boxSpec
  dsimp only
  refine Triple.ex_left' fun n => ?_
  xintro x p hx
  subst hx
  steps
  apply Triple.ret
  refine ent_pure_right rfl ?_
  xexists n + 1
  xexists .num p
  xexists p
  cancel

/-- the specifications on values, on a list of five -/
example : uniqBy (fun x y : Nat => x == y) [3, 3, 5, 3, 3] = [3, 5, 3] ∧ ([3, 3, 5, 3, 4].filter fun w => !(w == 3)) = [5, 4] := by
  refine ⟨?_, rfl⟩
  rw [uniqBy_cons, show List.dropWhile (fun y => 3 == y) [3, 5, 3, 3] = [5, 3, 3] from rfl, uniqBy_cons, show List.dropWhile (fun y => 5 == y) [3, 3] = [3, 3] from rfl, uniqBy_cons,
    show List.dropWhile (fun y => 3 == y) [3] = [] from rfl, uniqBy_nil]

end CC.Info
