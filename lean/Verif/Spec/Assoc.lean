import Verif.Spec.Order
/-!
# Specification vocabulary: ordered associative containers as abstract data types (no reference to the code)

The contents of a container is a list of elements of type `α`; `key` extracts the key of an element (for sets the element itself, for maps the first component of a pair) and `lt` orders the keys.
Arguments are named by elements of `A` (arrays of elements; a single element is an array of length 1) and `K` (keys); `ρ x j` is the value number `j` of the array `x`, `κ k` the value of the key `k`.
-/
namespace CC

/-- What a client observes.  `pos i o`: an iterator at distance `i` from the beginning, designating the element `o` (`none`: the end position). -/
inductive AOut (α : Type) where
  | done
  | pos (i : Nat) (o : Option α)
  | flag (b : Bool)
  | num (n : Nat)
  | all (xs : List α)

def AOut.map {α β : Type} (f : α → β) : AOut α → AOut β
  | .done => .done
  | .pos i o => .pos i (o.map f)
  | .flag b => .flag b
  | .num n => .num n
  | .all xs => .all (xs.map f)

/-- the operations on one container -/
inductive AssocOp (A K : Type) where
  | insert (x : A)
  | insertHint (i : Nat) (x : A)
  | insertFrom (x : A) (n : Nat)
  | erase (i : Nat)
  | eraseRange (i j : Nat)
  | eraseKey (k : K)
  | clear
  | find (k : K)
  | count (k : K)
  | lower (k : K)
  | upper (k : K)
  | size
  | empty
  | contents
  | contentsRev

/-- Operations on two containers of the same kind; `second` selects the container an operation is applied to.  `copyRange second i j`: insert into the selected container the elements `i`, …, `j-1` of the other one. -/
inductive AssocOp2 (A K : Type) where
  | on (second : Bool) (op : AssocOp A K)
  | copyRange (second : Bool) (i j : Nat)
  | swap

section
variable {α κ A K : Type} (key : α → κ) (lt : κ → κ → Bool)

/-- a container that holds no two elements with equivalent keys; elements are in ascending order -/
def UniqueOk (st : List α) : Prop := st.Pairwise fun x y => lt (key x) (key y) = true
/-- a container that may hold elements with equivalent keys; no element is followed by one with a smaller key -/
def MultiOk (st : List α) : Prop := st.Pairwise fun x y => lt (key y) (key x) = false

/-- Insertion into a set or map: if an element with an equivalent key exists, it stays and is designated by the result; otherwise `x` is put at its place. -/
def InsUnique (x : α) (st : List α) (i : Nat) (y : α) (st' : List α) : Prop :=
  (st' = st ∧ st[i]? = some y ∧ equivB lt (key x) (key y) = true) ∨
  ((∀ z ∈ st, equivB lt (key x) (key z) = false) ∧ y = x ∧ i ≤ st.length ∧ st' = st.take i ++ x :: st.drop i ∧
    (∀ z ∈ st.take i, lt (key z) (key x) = true) ∧ (∀ z ∈ st.drop i, lt (key x) (key z) = true))

/-- Insertion into a multiset or multimap: `x` is put behind all elements with keys not greater than its own. -/
def InsMulti (x : α) (st : List α) (i : Nat) (y : α) (st' : List α) : Prop :=
  y = x ∧ i ≤ st.length ∧ st' = st.take i ++ x :: st.drop i ∧ (∀ z ∈ st.take i, lt (key x) (key z) = false) ∧ (∀ z ∈ st.drop i, lt (key x) (key z) = true)

/-- `x` may be put in front of position `i` without breaking the order -/
def FitsAt (x : α) (st : List α) (i : Nat) : Prop := (∀ z ∈ st.take i, lt (key x) (key z) = false) ∧ (∀ z ∈ st.drop i, lt (key z) (key x) = false)

/-- Insertion into a multiset or multimap with a hint: in front of the hint if `x` fits there, else as without a hint. -/
def InsHint (h : Nat) (x : α) (st : List α) (i : Nat) (y : α) (st' : List α) : Prop :=
  (FitsAt key lt x st h ∧ i = h ∧ y = x ∧ st' = st.take h ++ x :: st.drop h) ∨ (¬ FitsAt key lt x st h ∧ InsMulti key lt x st i y st')

/-- Insertion: `unique` for sets and maps. -/
def Ins (unique : Bool) : α → List α → Nat → α → List α → Prop := if unique then InsUnique key lt else InsMulti key lt

/-- insertion of several values, one after the other -/
def InsAll (unique : Bool) : List α → List α → List α → Prop
  | [], st, st' => st' = st
  | x :: xs, st, st' => ∃ i y st1, Ins key lt unique x st i y st1 ∧ InsAll unique xs st1 st'

/-- What an operation does to the contents, and what it returns.  Positions out of range are skipped by the client. -/
def AssocStep (unique : Bool) (ρ : A → Nat → α) (κ : K → κ) : AssocOp A K → List α → AOut α → List α → Prop
  | .insert x, st, out, st' => ∃ i y, out = .pos i (some y) ∧ Ins key lt unique (ρ x 0) st i y st'
  | .insertHint h x, st, out, st' => ∃ i y, out = .pos i (some y) ∧
      (if unique then InsUnique key lt (ρ x 0) st i y st' else InsHint key lt (min h st.length) (ρ x 0) st i y st')
  | .insertFrom x n, st, out, st' => out = .done ∧ InsAll key lt unique ((List.range n).map (ρ x)) st st'
  | .erase i, st, out, st' => if i < st.length then out = .pos i st[i+1]? ∧ st' = st.eraseIdx i else out = .done ∧ st' = st
  | .eraseRange i j, st, out, st' => out = .done ∧ st' = if i ≤ j ∧ j ≤ st.length then st.take i ++ st.drop j else st
  | .eraseKey k, st, out, st' => out = .num (st.countP fun x => equivB lt (κ k) (key x)) ∧ st' = st.filter fun x => !equivB lt (κ k) (key x)
  | .clear, _, out, st' => out = .done ∧ st' = []
  | .find k, st, out, st' => st' = st ∧
      ((∃ i x, out = .pos i (some x) ∧ st[i]? = some x ∧ equivB lt (κ k) (key x) = true) ∨ (out = .pos st.length none ∧ ∀ x ∈ st, equivB lt (κ k) (key x) = false))
  | .count k, st, out, st' => out = .num (st.countP fun x => equivB lt (κ k) (key x)) ∧ st' = st
  | .lower k, st, out, st' => st' = st ∧ ∃ i, i ≤ st.length ∧ out = .pos i st[i]? ∧ (∀ x ∈ st.take i, lt (key x) (κ k) = true) ∧ (∀ x ∈ st.drop i, lt (key x) (κ k) = false)
  | .upper k, st, out, st' => st' = st ∧ ∃ i, i ≤ st.length ∧ out = .pos i st[i]? ∧ (∀ x ∈ st.take i, lt (κ k) (key x) = false) ∧ (∀ x ∈ st.drop i, lt (κ k) (key x) = true)
  | .size, st, out, st' => out = .num st.length ∧ st' = st
  | .empty, st, out, st' => out = .flag st.isEmpty ∧ st' = st
  | .contents, st, out, st' => out = .all st ∧ st' = st
  | .contentsRev, st, out, st' => out = .all st.reverse ∧ st' = st

/-- the pair with the selected component replaced -/
def put {β : Type} (second : Bool) (x : β) (p : β × β) : β × β := if second then (p.1, x) else (x, p.2)
def sel {β : Type} (second : Bool) (p : β × β) : β := if second then p.2 else p.1

def AssocStep2 (unique : Bool) (ρ : A → Nat → α) (κ : K → κ) : AssocOp2 A K → List α × List α → AOut α → List α × List α → Prop
  | .on b op, p, out, p' => ∃ st', AssocStep key lt unique ρ κ op (sel b p) out st' ∧ p' = put b st' p
  | .copyRange b i j, p, out, p' => out = .done ∧
      if i ≤ j ∧ j ≤ (sel (!b) p).length then ∃ st', InsAll key lt unique (((sel (!b) p).take j).drop i) (sel b p) st' ∧ p' = put b st' p else p' = p
  | .swap, p, out, p' => out = .done ∧ p' = (p.2, p.1)

/-- the invariant of the contents -/
def AssocOk (unique : Bool) (st : List α) : Prop := if unique then UniqueOk key lt st else MultiOk key lt st

/-! ### consequences of the specification -/

variable {key lt} {st st' : List α} {u : Bool}

theorem uniqueOk_insert {x : α} {s1 s2 : List α} (h : UniqueOk key lt (s1 ++ s2)) (h1 : ∀ z ∈ s1, lt (key z) (key x) = true) (h2 : ∀ z ∈ s2, lt (key x) (key z) = true) :
    UniqueOk key lt (s1 ++ x :: s2) := by
  unfold UniqueOk at *
  rw [List.pairwise_append] at h ⊢
  refine ⟨h.1, List.pairwise_cons.2 ⟨h2, h.2.1⟩, fun a ha b hb => ?_⟩
  rcases List.mem_cons.1 hb with rfl | hb
  · exact h1 a ha
  · exact h.2.2 a ha b hb

theorem InsUnique.ok {x y : α} {i : Nat} (h : UniqueOk key lt st) (hi : InsUnique key lt x st i y st') : UniqueOk key lt st' := by
  rcases hi with ⟨rfl, _⟩ | ⟨_, _, _, rfl, h1, h2⟩
  · exact h
  · exact uniqueOk_insert (by rwa [List.take_append_drop]) h1 h2

theorem InsAll.uniqueOk {xs : List α} (h : UniqueOk key lt st) (hi : InsAll key lt true xs st st') : UniqueOk key lt st' := by
  induction xs generalizing st with
  | nil => cases hi; exact h
  | cons x xs ih =>
    obtain ⟨i, y, st1, h1, h2⟩ := hi
    exact ih (InsUnique.ok h h1) h2

/-- sets and maps never hold two elements with equivalent keys -/
theorem AssocStep.uniqueOk {ρ : A → Nat → α} {ϰ : K → κ} {op : AssocOp A K} {out : AOut α} (h : UniqueOk key lt st)
    (hs : AssocStep key lt true ρ ϰ op st out st') : UniqueOk key lt st' := by
  cases op with
  | insert x => obtain ⟨i, y, _, h1⟩ := hs; exact InsUnique.ok h h1
  | insertHint j x => obtain ⟨i, y, _, h1⟩ := hs; exact InsUnique.ok h h1
  | insertFrom x n => exact InsAll.uniqueOk h hs.2
  | erase i =>
    simp only [AssocStep] at hs
    split at hs
    · rw [hs.2]; exact List.Pairwise.sublist (List.eraseIdx_sublist _ _) h
    · rw [hs.2]; exact h
  | eraseRange i j =>
    simp only [AssocStep] at hs
    obtain ⟨_, hs⟩ := hs
    rw [hs]
    split
    · refine List.Pairwise.sublist ?_ h
      conv => rhs; rw [← List.take_append_drop i st]
      refine List.Sublist.append (List.Sublist.refl _) ?_
      rw [show j = i + (j - i) by omega, ← List.drop_drop]
      exact List.drop_sublist _ _
    · exact h
  | eraseKey k => rw [hs.2]; exact List.Pairwise.sublist List.filter_sublist h
  | clear => rw [hs.2]; exact List.Pairwise.nil
  | find k => rw [hs.1]; exact h
  | count k => rw [hs.2]; exact h
  | lower k => rw [hs.1]; exact h
  | upper k => rw [hs.1]; exact h
  | size => rw [hs.2]; exact h
  | empty => rw [hs.2]; exact h
  | contents => rw [hs.2]; exact h
  | contentsRev => rw [hs.2]; exact h

theorem AssocStep2.uniqueOk {ρ : A → Nat → α} {ϰ : K → κ} {op : AssocOp2 A K} {out : AOut α} {p p' : List α × List α} (h1 : UniqueOk key lt p.1) (h2 : UniqueOk key lt p.2)
    (hs : AssocStep2 key lt true ρ ϰ op p out p') : UniqueOk key lt p'.1 ∧ UniqueOk key lt p'.2 := by
  cases op with
  | on b op =>
    obtain ⟨st', hs, rfl⟩ := hs
    cases b with
    | true => exact ⟨h1, hs.uniqueOk h2⟩
    | false => exact ⟨hs.uniqueOk h1, h2⟩
  | copyRange b i j =>
    obtain ⟨_, hs⟩ := hs
    split at hs
    · obtain ⟨st', hs, rfl⟩ := hs
      cases b with
      | true => exact ⟨h1, hs.uniqueOk h2⟩
      | false => exact ⟨hs.uniqueOk h1, h2⟩
    · rw [hs]; exact ⟨h1, h2⟩
  | swap => rw [hs.2]; exact ⟨h2, h1⟩

end

/-! ### maps as finite functions -/
section
variable {κ μ : Type} {lt : κ → κ → Bool} {st st' : List (κ × μ)}

/-- the value a map has at a key -/
def lookup (lt : κ → κ → Bool) (st : List (κ × μ)) (k : κ) : Option μ := (st.find? fun x => equivB lt k x.1).map (·.2)

theorem equivB_symm {a b : κ} : equivB lt a b = equivB lt b a := by simp only [equivB]; rw [Bool.and_comm]

theorem equivB_trans (hw : StrictWeak lt) {a b c : κ} (h1 : equivB lt a b = true) (h2 : equivB lt b c = true) : equivB lt a c = true := by
  simp only [equivB, Bool.and_eq_true, Bool.not_eq_true'] at *
  exact hw.incomp_trans a b c h1 h2

/-- Insertion into a map binds a key that is not bound, and leaves a key that is bound as it is. -/
theorem lookup_insert (hw : StrictWeak lt) {k c : κ} {m : μ} {i : Nat} {y : κ × μ} (h : InsUnique Prod.fst lt (k, m) st i y st') :
    lookup lt st' c = if equivB lt c k && (lookup lt st k).isNone then some m else lookup lt st c := by
  rcases h with ⟨rfl, h1, h2⟩ | ⟨hn, _, _, rfl, h1, h2⟩
  · have : (lookup lt st' k).isNone = false := by
      cases hl : lookup lt st' k with
      | some _ => rfl
      | none =>
        unfold lookup at hl
        rw [Option.map_eq_none_iff, List.find?_eq_none] at hl
        exact absurd h2 (hl y (List.mem_of_getElem? h1))
    simp [this]
  · have hk : lookup lt st k = none := by
      unfold lookup
      rw [Option.map_eq_none_iff, List.find?_eq_none]
      intro x hx
      rw [hn x hx]; simp
    rw [hk]
    simp only [Option.isNone_none, Bool.and_true]
    cases hc : equivB lt c k with
    | true =>
      unfold lookup
      have h3 : (st.take i).find? (fun x => equivB lt c x.1) = none := by
        rw [List.find?_eq_none]
        intro x hx hcx
        have := equivB_trans hw (by rw [equivB_symm]; exact hc : equivB lt k c = true) hcx
        rw [hn x (List.mem_of_mem_take hx)] at this
        cases this
      rw [List.find?_append, h3]
      simp [hc]
    | false =>
      unfold lookup
      have hst : st.find? (fun x => equivB lt c x.1) = (st.take i ++ st.drop i).find? (fun x => equivB lt c x.1) := by rw [List.take_append_drop]
      rw [hst, List.find?_append, List.find?_append, List.find?_cons]
      simp [hc]

/-- Erasing a key unbinds it and no other key. -/
theorem lookup_eraseKey (hw : StrictWeak lt) {k c : κ} : lookup lt (st.filter fun x => !equivB lt k x.1) c = if equivB lt c k then none else lookup lt st c := by
  unfold lookup
  cases hc : equivB lt c k with
  | true =>
    simp only [↓reduceIte, Option.map_eq_none_iff, List.find?_eq_none]
    intro x hx hcx
    have h1 := (List.mem_filter.1 hx).2
    rw [equivB_trans hw (by rw [equivB_symm]; exact hc : equivB lt k c = true) hcx] at h1
    cases h1
  | false =>
    simp only [Bool.false_eq_true, ↓reduceIte]
    congr 1
    induction st with
    | nil => rfl
    | cons x st ih =>
      rw [List.filter_cons]
      cases hx : equivB lt k x.1 with
      | true =>
        have h1 : equivB lt c x.1 = false := by
          cases h2 : equivB lt c x.1 with
          | false => rfl
          | true =>
            rw [equivB_trans hw h2 (by rw [equivB_symm]; exact hx)] at hc
            cases hc
        simp [ih, h1]
      | false => simp [List.find?_cons, ih]

end
end CC
