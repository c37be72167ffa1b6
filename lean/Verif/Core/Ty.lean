import Verif.Core.Mem
/-!
# Element types

`c_type_info_t` (include/c_def.h:60-90) is a table of callbacks for an element type.
-/
namespace CC

/-- The callbacks of a `c_type_info_t` the containers use, as pure functions of element values
(`create` constructs `dflt`, `copy` constructs an equal value, `destroy` has no visible effect besides ending the
object's life).  Simplification: callbacks have no side effects. -/
structure Ty (V : Type) where
  dflt : V
  less : V → V → Bool
  equal : V → V → Bool

/-- All type descriptors of the program, by (non-zero) id.  Two descriptors are "the same" for
`__c_is_same` (c_def.h:327, a memcmp of the tables) iff they have the same id. -/
abbrev Types (V : Type) := Nat → Ty V

/-- `__c_is_same`, include/c_def.h:327 -/
def isSame (x y : Nat) : Bool := x != 0 && y != 0 && x == y

end CC
