import Verif.IAlgo.Forms
import Verif.Props.CIterAlgo
import Verif.Props.CIterModify
import Verif.Props.CIterSort
import Verif.Props.CIterAll
/-!
# Property C79: the comparison-free forms

`c_algo_find(x, y, f, v)` and 36 other macros use the comparison of the element type of the range: `(E r.ty).less` or `(E r.ty).equal`, where `r.ty` is the element type of the container of the first
iterator.  With that, each does what the corresponding `…_by` function does (C62–C64).  Generated by tools/gen_forms.py.
-/
namespace CC.IAlgo
open CC CC.Tac CC.Iter CC.Algo
variable {V : Type} {Z : Nat → Nat} {S A A1 A2 G G1 G2 P : HProp V} {r r2 r3 : Src V} {B B1 B2 : Nat → HProp V} {first last middle first2 last2 dFirst dLast i j k : Nat} {vs us ws : List V} {value : Loc}
  {w : V} {o o2 : IAlgo.Out} {low : Nat → Nat}

