/-!
# Specification vocabulary for the modifying algorithms (no reference to the code)
-/
namespace CC.Algo
variable {V : Type}

/-- `vs` without the elements related to the last one kept before them, the last one kept being `a` -/
def uniqTail (pred : V → V → Bool) : V → List V → List V
  | _, [] => []
  | a, v :: vs => if pred a v then uniqTail pred a vs else v :: uniqTail pred v vs

/-- the first element of each run of related elements -/
def uniq (pred : V → V → Bool) : List V → List V
  | [] => []
  | v :: vs => v :: uniqTail pred v vs

/-- the list `xs` written over the front of `us` -/
def over (us xs : List V) : List V := xs ++ us.drop xs.length

/-- the list `xs` written over the back of `us` -/
def overBack (us xs : List V) : List V := us.take (us.length - xs.length) ++ xs

example : uniq (fun a b : Nat => a == b) [1, 1, 2, 2, 2, 1, 3, 3] = [1, 2, 1, 3] := rfl
example : over [1, 2, 3, 4] [7, 8] = [7, 8, 3, 4] := rfl
example : overBack [1, 2, 3, 4] [7, 8] = [1, 2, 7, 8] := rfl

end CC.Algo
