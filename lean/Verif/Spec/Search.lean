/-!
# What the searches of the library are supposed to find (no reference to the code)
-/
namespace CC.Algo
variable {V : Type}

/-- `k` is the least number below `n` with property `p` -/
def IsFirst (p : Nat → Prop) (n k : Nat) : Prop := k < n ∧ p k ∧ ∀ j, j < k → ¬ p j
/-- `k` is the greatest number below `n` with property `p` -/
def IsLast (p : Nat → Prop) (n k : Nat) : Prop := k < n ∧ p k ∧ ∀ j, k < j → j < n → ¬ p j

/-- A search in a range of `n` elements that starts at iterator `i` found the first index with property `p`, or there is none and it returned the end. -/
def FoundFirst (p : Nat → Prop) (n i : Nat) (r : Bool × Nat) : Prop :=
  (r.1 = true ∧ ∃ k, IsFirst p n k ∧ r.2 = i + k) ∨ (r.1 = false ∧ r.2 = i + n ∧ ∀ j, j < n → ¬ p j)
/-- likewise the last index -/
def FoundLast (p : Nat → Prop) (n i : Nat) (r : Bool × Nat) : Prop :=
  (r.1 = true ∧ ∃ k, IsLast p n k ∧ r.2 = i + k) ∨ (r.1 = false ∧ r.2 = i + n ∧ ∀ j, j < n → ¬ p j)

/-- the property "index `k` of the range holds a value with property `p`" -/
def At (vs : List V) (p : V → Prop) (k : Nat) : Prop := ∃ v, vs[k]? = some v ∧ p v

/-- indices where two neighbours are related -/
def AdjAt (vs : List V) (p : V → V → Prop) (k : Nat) : Prop := ∃ a b, vs[k]? = some a ∧ vs[k + 1]? = some b ∧ p a b

/-- the pattern `us` occurs in `vs` at index `k`: element by element related -/
def MatchAt (vs us : List V) (p : V → V → Prop) (k : Nat) : Prop := ∀ t, t < us.length → ∃ a b, vs[k + t]? = some a ∧ us[t]? = some b ∧ p a b

/-- `n` consecutive elements from index `k` on have property `p` -/
def RunAt (vs : List V) (n : Nat) (p : V → Prop) (k : Nat) : Prop := ∀ t, t < n → At vs p (k + t)

/-- the elements with property `q` come before those without -/
def Parted (q : V → Bool) (vs : List V) : Prop := vs.Pairwise fun a b => q b = true → q a = true

/-- `k` separates the elements with property `q` from those without -/
def SplitAt (q : V → Bool) (vs : List V) (k : Nat) : Prop :=
  k ≤ vs.length ∧ (∀ v, v ∈ vs.take k → q v = true) ∧ (∀ v, v ∈ vs.drop k → q v = false)

/-- `k` is the first element that no element is better than -/
def FirstBest (bt : V → V → Bool) (vs : List V) (k : Nat) : Prop := IsFirst (At vs fun v => ∀ u, u ∈ vs → bt v u = false) vs.length k

end CC.Algo
