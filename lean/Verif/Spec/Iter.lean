import Verif.Iter.Model
/-!
# Specification: what a program with iterator variables observes

A *source* is a way of going through a container (forward or backward): its positions are `0 … len` (`len` is the end), and position `i < len` designates the location `ref i`.
An iterator variable is NULL, a declared but not yet initialised struct, or an iterator at a position of a source; `own` says that it was allocated by a copy (and may be freed).
-/
namespace CC.Iter
open CC

/-- a way of going through a container -/
structure Shape where
  kind : Kind
  ty : Nat
  len : Nat
  ref : Nat → Loc

/-- an iterator variable -/
inductive Var where
  | null
  | raw
  | at_ (s : Nat) (i : Nat) (own : Bool)
deriving DecidableEq, Repr

def Var.own : Var → Bool
  | .at_ _ _ o => o
  | _ => false

/-- what a client does with its iterator variables; `d`, `e`, `t` are variables, `s` is a source -/
inductive Op where
  | first (s d : Nat)          -- `d = begin` of the source
  | last (s d : Nat)           -- `d = end` of the source
  | copy (d e : Nat)           -- `C_ITER_COPY(&d, e)`
  | assign (d e : Nat)         -- `C_ITER_ASSIGN(d, e)`
  | copyOrAssign (d e : Nat)   -- `__c_iter_copy_or_assign(&d, e)`
  | inc (d : Nat)
  | dec (d : Nat)
  | postInc (d t : Nat)        -- `post_increment(d, &t)`
  | postDec (d t : Nat)
  | deref (d : Nat)
  | eq (d e : Nat)
  | ne (d e : Nat)
  | less (d e : Nat)
  | advance (d : Nat) (n : Int)
  | distance (d e : Nat)
  | free (d : Nat)
deriving DecidableEq, Repr

/-- what the client sees -/
inductive Obs where
  | done
  | bool (b : Bool)
  | int (n : Int)
  | loc (l : Loc)
  | null (b : Bool)       -- whether the returned iterator is NULL
deriving DecidableEq, Repr

/-- can it be decremented? -/
def Kind.bidir (k : Kind) : Prop := k ≠ .fwd
/-- can it be compared with `<`? -/
def Kind.random (k : Kind) : Prop := k = .vec ∨ k = .vecR ∨ k = .deq ∨ k = .deqR

/-- The effect of an operation on the variables.  `nf` says that allocation does not fail.  Operations for which there is no step are not allowed
(moving out of the range, comparing positions of different sources with `<`, …). -/
inductive Step (nf : Prop) (S : List Shape) (xs : List Var) : Op → List Var → Obs → Prop where
  | first {s d x r} : xs[d]? = some x → x ≠ .null → S[s]? = some r → Step nf S xs (.first s d) (xs.set d (.at_ s 0 x.own)) .done
  | last {s d x r} : xs[d]? = some x → x ≠ .null → S[s]? = some r → Step nf S xs (.last s d) (xs.set d (.at_ s r.len x.own)) .done
  | copy {d e s i o} : xs[d]? = some .null → xs[e]? = some (.at_ s i o) → Step nf S xs (.copy d e) (xs.set d (.at_ s i true)) .done
  | copyFail {d e s i o} : ¬ nf → xs[d]? = some .null → xs[e]? = some (.at_ s i o) → Step nf S xs (.copy d e) xs .done
  | copyBusy {d e x s i o} : xs[d]? = some x → x ≠ .null → xs[e]? = some (.at_ s i o) → Step nf S xs (.copy d e) xs .done
  | assign {d e s i o s' i' o' r r'} : xs[d]? = some (.at_ s i o) → xs[e]? = some (.at_ s' i' o') → S[s]? = some r → S[s']? = some r' → r.kind = r'.kind → r.ty = r'.ty →
      Step nf S xs (.assign d e) (xs.set d (.at_ s' i' o)) .done
  | assignOther {d e s i o s' i' o' r r'} : xs[d]? = some (.at_ s i o) → xs[e]? = some (.at_ s' i' o') → S[s]? = some r → S[s']? = some r' → r.kind ≠ r'.kind →
      Step nf S xs (.assign d e) xs .done
  | coCopy {d e s i o} : xs[d]? = some .null → xs[e]? = some (.at_ s i o) → Step nf S xs (.copyOrAssign d e) (xs.set d (.at_ s i true)) .done
  | coCopyFail {d e s i o} : ¬ nf → xs[d]? = some .null → xs[e]? = some (.at_ s i o) → Step nf S xs (.copyOrAssign d e) xs .done
  | coAssign {d e s i o s' i' o' r r'} : xs[d]? = some (.at_ s i o) → xs[e]? = some (.at_ s' i' o') → S[s]? = some r → S[s']? = some r' → r.kind = r'.kind → r.ty = r'.ty →
      Step nf S xs (.copyOrAssign d e) (xs.set d (.at_ s' i' o)) .done
  | coAssignOther {d e s i o s' i' o' r r'} : xs[d]? = some (.at_ s i o) → xs[e]? = some (.at_ s' i' o') → S[s]? = some r → S[s']? = some r' → r.kind ≠ r'.kind →
      Step nf S xs (.copyOrAssign d e) xs .done
  | inc {d s i o r} : xs[d]? = some (.at_ s i o) → S[s]? = some r → i < r.len → Step nf S xs (.inc d) (xs.set d (.at_ s (i + 1) o)) .done
  | dec {d s i o r} : xs[d]? = some (.at_ s (i + 1) o) → S[s]? = some r → r.kind.bidir → Step nf S xs (.dec d) (xs.set d (.at_ s i o)) .done
  | postInc {d t s i o r} : xs[d]? = some (.at_ s i o) → xs[t]? = some .null → S[s]? = some r → i < r.len →
      Step nf S xs (.postInc d t) ((xs.set t (.at_ s i true)).set d (.at_ s (i + 1) o)) (.null false)
  | postIncFail {d t s i o r} : ¬ nf → xs[d]? = some (.at_ s i o) → xs[t]? = some .null → S[s]? = some r → i < r.len →
      Step nf S xs (.postInc d t) (xs.set d (.at_ s (i + 1) o)) (.null true)
  | postIncTo {d t s i o s' i' o' r r'} : d ≠ t → xs[d]? = some (.at_ s i o) → xs[t]? = some (.at_ s' i' o') → S[s]? = some r → S[s']? = some r' → r.kind = r'.kind → r.ty = r'.ty →
      i < r.len → Step nf S xs (.postInc d t) ((xs.set t (.at_ s i o')).set d (.at_ s (i + 1) o)) (.null false)
  | postDec {d t s i o r} : xs[d]? = some (.at_ s (i + 1) o) → xs[t]? = some .null → S[s]? = some r → r.kind.bidir →
      Step nf S xs (.postDec d t) ((xs.set t (.at_ s (i + 1) true)).set d (.at_ s i o)) (.null false)
  | postDecFail {d t s i o r} : ¬ nf → xs[d]? = some (.at_ s (i + 1) o) → xs[t]? = some .null → S[s]? = some r → r.kind.bidir →
      Step nf S xs (.postDec d t) (xs.set d (.at_ s i o)) (.null true)
  | postDecTo {d t s i o s' i' o' r r'} : d ≠ t → xs[d]? = some (.at_ s (i + 1) o) → xs[t]? = some (.at_ s' i' o') → S[s]? = some r → S[s']? = some r' → r.kind = r'.kind →
      r.ty = r'.ty → r.kind.bidir → Step nf S xs (.postDec d t) ((xs.set t (.at_ s (i + 1) o')).set d (.at_ s i o)) (.null false)
  | deref {d s i o r} : xs[d]? = some (.at_ s i o) → S[s]? = some r → i < r.len → Step nf S xs (.deref d) xs (.loc (r.ref i))
  | eq {d e s i o s' i' o'} : xs[d]? = some (.at_ s i o) → xs[e]? = some (.at_ s' i' o') → Step nf S xs (.eq d e) xs (.bool (decide (s = s' ∧ i = i')))
  | eqNull {d e s i o} : xs[d]? = some (.at_ s i o) → xs[e]? = some .null → Step nf S xs (.eq d e) xs (.bool false)
  | ne {d e s i o s' i' o'} : xs[d]? = some (.at_ s i o) → xs[e]? = some (.at_ s' i' o') → Step nf S xs (.ne d e) xs (.bool (decide (¬ (s = s' ∧ i = i'))))
  | neNull {d e s i o} : xs[d]? = some (.at_ s i o) → xs[e]? = some .null → Step nf S xs (.ne d e) xs (.bool true)
  | less {d e s i o i' o' r} : xs[d]? = some (.at_ s i o) → xs[e]? = some (.at_ s i' o') → S[s]? = some r → r.kind.random → Step nf S xs (.less d e) xs (.bool (decide (i < i')))
  | advance {d s o r} {i : Nat} {n : Int} : xs[d]? = some (.at_ s i o) → S[s]? = some r → 0 ≤ (i : Int) + n → (i : Int) + n ≤ r.len → (0 ≤ n ∨ r.kind.bidir) →
      Step nf S xs (.advance d n) (xs.set d (.at_ s ((i : Int) + n).toNat o)) .done
  | distance {d e s o o'} {i i' : Nat} : xs[d]? = some (.at_ s i o) → xs[e]? = some (.at_ s i' o') → i ≤ i' → Step nf S xs (.distance d e) xs (.int ((i' : Int) - i))
  | free {d s i} : xs[d]? = some (.at_ s i true) → Step nf S xs (.free d) (xs.set d .null) .done

/-- a history: the steps of a sequence of operations, with what the client sees -/
inductive Steps (nf : Prop) (S : List Shape) : List Var → List Op → List Var → List Obs → Prop where
  | nil {xs} : Steps nf S xs [] xs []
  | cons {xs op ops xs' ob xs'' obs} : Step nf S xs op xs' ob → Steps nf S xs' ops xs'' obs → Steps nf S xs (op :: ops) xs'' (ob :: obs)

/-- every operation is allowed when it is its turn, whatever the allocator did before -/
def Allowed (nf : Prop) (S : List Shape) : List Var → List Op → Prop
  | _, [] => True
  | xs, op :: ops => (∃ xs' ob, Step nf S xs op xs' ob) ∧ ∀ xs' ob, Step nf S xs op xs' ob → Allowed nf S xs' ops

end CC.Iter
