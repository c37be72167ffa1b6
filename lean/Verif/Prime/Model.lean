import Verif.Core.Elem
/-!
# The built-in element types

`prime/c_primes.c` makes, by the macros of `prime/c_prime_internal.h`, one table of callbacks for each of fourteen C number types.  The macros
are modelled once, as programs that take the C type as a parameter.
-/
namespace CC.Prime
open CC

/-- A floating-point value: not-a-number, or the `k`-th value (counted from zero, in the order of `<`) of the values of the type, infinities included.
Simplification: `-0.0` and `0.0`, which compare equal, are one value. -/
inductive Flt where
  | nan
  | nth (k : Int)
  deriving DecidableEq

/-- A number as it is stored in memory. -/
inductive Num where
  | int (z : Int)
  | flt (f : Flt)
  deriving DecidableEq

/-- The fourteen C types of prime/c_primes.c:27-67. -/
inductive CType where
  | char | double | float | int | long | short | schar | sint | slong | sshort | uchar | uint | ulong | ushort
  deriving DecidableEq

/-- smallest value of an integer type (`char` signed, LP64 sizes) -/
def CType.lo : CType → Int
  | .char | .schar => -2^7
  | .short | .sshort => -2^15
  | .int | .sint => -2^31
  | .long | .slong => -2^63
  | _ => 0

/-- one more than the largest value of an integer type -/
def CType.hi : CType → Int
  | .char | .schar => 2^7
  | .uchar => 2^8
  | .short | .sshort => 2^15
  | .ushort => 2^16
  | .int | .sint => 2^31
  | .uint => 2^32
  | .long | .slong => 2^63
  | .ulong => 2^64
  | .float | .double => 0

/-- is it `float` or `double`? -/
def CType.isFloat : CType → Bool
  | .float | .double => true
  | _ => false

/-- the values an object of the type can have -/
def CType.Holds (t : CType) : Num → Prop
  | .int z => t.isFloat = false ∧ t.lo ≤ z ∧ z < t.hi
  | .flt _ => t.isFloat = true

instance (t : CType) : DecidablePred t.Holds := fun n => by
  cases n <;> unfold CType.Holds <;> infer_instance

/-- `0`, `0l`, `0u`, `0.0f`, …: the third argument of `__C_TYPE_OPERATIONS`, prime/c_primes.c:27-67 -/
def CType.zero (t : CType) : Num := if t.isFloat then .flt (.nth 0) else .int 0

/-- the operator `<` on two numbers of the same C type -/
def Num.lt : Num → Num → Bool
  | .int a, .int b => decide (a < b)
  | .flt (.nth a), .flt (.nth b) => decide (a < b)
  | _, _ => false

/-- the operator `==` on two numbers of the same C type -/
def Num.eq : Num → Num → Bool
  | .int a, .int b => decide (a = b)
  | .flt (.nth a), .flt (.nth b) => decide (a = b)
  | _, _ => false

/-- `*((__type*)p)` as a value: anything but an object of the type is undefined behaviour -/
def read (t : CType) (p : Loc) : M Num Num := do
  let v ← ldV p
  if t.Holds v then pure v else ub

/-- `*((__type*)p) = v`: the storage may hold an object or raw bytes -/
def write (p : Loc) (v : Num) : M Num Unit := do
  let _ ← load p
  store p (.obj (some v))

/-- `__C_TYPE_ALLOCATE`, prime/c_prime_internal.h:38-42 (the result is the address of the block; its only slot is 1) -/
def allocate : M Num Addr := mallocO 1

/-- `__C_TYPE_CREATE`, prime/c_prime_internal.h:44-49 -/
def create (t : CType) (obj : Loc) : M Num Unit := do
  cassert (obj.1 != 0)
  write obj t.zero

/-- `__C_TYPE_COPY`, prime/c_prime_internal.h:51-57 (both assertions test `dst`) -/
def copy (t : CType) (dst src : Loc) : M Num Unit := do
  cassert (dst.1 != 0)
  cassert (dst.1 != 0)
  let v ← read t src
  write dst v

/-- `__C_TYPE_DESTROY`, prime/c_prime_internal.h:59-64 -/
def destroy (obj : Loc) : M Num Unit := do
  cassert (obj.1 != 0)

/-- `__C_TYPE_DEALLOCATE`, prime/c_prime_internal.h:66-70 -/
def deallocate (obj : Addr) : M Num Unit := free obj

/-- `__C_TYPE_ASSIGN`, prime/c_prime_internal.h:72-81 (both assertions test `dst`) -/
def assign (t : CType) (dst src : Loc) : M Num Loc := do
  cassert (dst.1 != 0)
  cassert (dst.1 != 0)
  if dst ≠ src then do
    let v ← read t src
    write dst v
  pure dst

/-- `__C_TYPE_LESS`, prime/c_prime_internal.h:83-89 -/
def less (t : CType) (lhs rhs : Loc) : M Num Bool := do
  cassert (lhs.1 != 0)
  cassert (rhs.1 != 0)
  let x ← read t lhs
  let y ← read t rhs
  pure (x.lt y)

/-- `__C_TYPE_EQUAL`, prime/c_prime_internal.h:91-97 -/
def equal (t : CType) (lhs rhs : Loc) : M Num Bool := do
  cassert (lhs.1 != 0)
  cassert (rhs.1 != 0)
  let x ← read t lhs
  let y ← read t rhs
  pure (x.eq y)

/-- the callbacks of the table that vectors and deques use (`__C_GET_TYPE_INFO`, prime/c_prime_internal.h:110-125) -/
def ops (t : CType) : Ops Num where
  create := create t
  copy := copy t
  destroy := destroy

/-- the callbacks of the table as pure functions (the view of the table the other layers use) -/
def ty (t : CType) : Ty Num where
  dflt := t.zero
  less := Num.lt
  equal := Num.eq

end CC.Prime
