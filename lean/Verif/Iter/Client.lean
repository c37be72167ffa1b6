import Verif.Spec.Iter
/-!
# Clients of iterators

The client program of a sequence of operations: its variables are the pointers `(vp, 1)`, `(vp, 2)`, … (`c_iterator_t* v[n]`), each NULL or the address of an iterator struct.
-/
namespace CC.Iter
open CC
variable {V : Type}

/-- a source as the program sees it: the functions that return its two ends (value type and position) -/
structure Src (V : Type) extends Shape where
  first : M V (Nat × Pay)
  last : M V (Nat × Pay)
  /-- the payload of the iterator at position `i` -/
  pay : Nat → Pay

/-- the variable `d` -/
abbrev var (vp : Addr) (d : Nat) : Loc := (vp, d + 1)

/-- one operation of a client -/
def run (Z : Nat → Nat) (S : List (Src V)) (vp : Addr) : Op → M V Obs
  | .first s d => match S[s]? with
    | none => ub
    | some r => do
      let p ← r.first
      let x ← ldN (var vp d)
      setIter x r.kind p.1 p.2
      pure .done
  | .last s d => match S[s]? with
    | none => ub
    | some r => do
      let p ← r.last
      let x ← ldN (var vp d)
      setIter x r.kind p.1 p.2
      pure .done
  | .copy d e => do
    let y ← ldN (var vp e)
    cCopy (var vp d) y
    pure .done
  | .assign d e => do
    let x ← ldN (var vp d)
    let y ← ldN (var vp e)
    let _ ← cAssign x y
    pure .done
  | .copyOrAssign d e => do
    let y ← ldN (var vp e)
    copyOrAssign (var vp d) y
    pure .done
  | .inc d => do
    let x ← ldN (var vp d)
    let _ ← cInc x
    pure .done
  | .dec d => do
    let x ← ldN (var vp d)
    let _ ← cDec x
    pure .done
  | .postInc d t => do
    let x ← ldN (var vp d)
    let r ← cPostInc x (var vp t)
    pure (.null (r == 0))
  | .postDec d t => do
    let x ← ldN (var vp d)
    let r ← cPostDec x (var vp t)
    pure (.null (r == 0))
  | .deref d => do
    let x ← ldN (var vp d)
    let l ← cDeref x
    pure (.loc l)
  | .eq d e => do
    let x ← ldN (var vp d)
    let y ← ldN (var vp e)
    let b ← cEq x y
    pure (.bool b)
  | .ne d e => do
    let x ← ldN (var vp d)
    let y ← ldN (var vp e)
    let b ← cNe x y
    pure (.bool b)
  | .less d e => do
    let x ← ldN (var vp d)
    let y ← ldN (var vp e)
    let b ← cLess x y
    pure (.bool b)
  | .advance d n => do
    let x ← ldN (var vp d)
    cAdvance x n
    pure .done
  | .distance d e => do
    let x ← ldN (var vp d)
    let y ← ldN (var vp e)
    let n ← cDistance Z x y
    pure (.int n)
  | .free d => do
    let x ← ldN (var vp d)
    free x
    stN (var vp d) 0
    pure .done

/-- a sequence of operations -/
def runAll (Z : Nat → Nat) (S : List (Src V)) (vp : Addr) : List Op → M V (List Obs)
  | [] => pure []
  | op :: ops => do
    let o ← run Z S vp op
    let os ← runAll Z S vp ops
    pure (o :: os)

end CC.Iter
