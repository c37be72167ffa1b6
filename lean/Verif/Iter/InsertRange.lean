import Verif.Iter.Spec
import Verif.Vec.Spec4
import Verif.Deq.Spec2
import Verif.Core.Bad
/-!
# Model: `c_vector_insert_range` and `c_deque_insert_range`

Their parameters `first` and `last` have the type `c_iterator_t` (c_vector.h:89, c_deque.h:85), not `c_iterator_t*`: the callee gets copies of the base struct (category, type, operations,
value type).  The payload (`node` or `pos`) belongs to the derived structs and is not copied.
-/
namespace CC.Iter
open CC CC.Tac
variable {V W : Type} {nf : Prop} {T : Nat → Ops V} {ty v b lo hi cap : Nat} {ws : List W}

/-- a parameter of type `c_iterator_t` (c_def.h:183-188): a struct of four members on the stack.  Passing it fills these from the caller's iterator. -/
def isParam (k : Kind) (ty a : Nat) : HProp V := blk a 4 ∗ fld a 1 k.cate ∗ fld a 2 k.type ∗ fld a 3 k.ops ∗ fld a 4 ty

/-- the loop of `c_vector_insert_range`, c_vector.c:743-750; `first`, `last` are the parameter objects -/
def vecInsertLoop (T : Nat → Ops V) (v : Addr) (pos : Loc) (first last : Addr) : M V Loc := do
  let ne ← cNe first last
  if ne then do
    let value ← cDeref first
    let pos ← Vec.insert T v pos value
    let f ← ldP (v, 2)
    if pos = f then pure pos else do
    let _ ← cInc first
    vecInsertLoop T v (padd pos 1) first last
  else pure pos
partial_fixpoint

/-- `c_vector_insert_range`, c_vector.c:736-753 -/
def vecInsertRange (T : Nat → Ops V) (v : Addr) (pos : Loc) (first last : Addr) : M V Loc :=
  if v = 0 then pure pos else do
  let ok ← Vec.isValidPos v pos
  if !ok then Vec.vend v else vecInsertLoop T v pos first last

/-- the loop of `c_deque_insert_range`, c_deque.c:834-840 -/
def deqInsertLoop (T : Nat → Ops V) (v : Addr) (pos : Loc) (first last : Addr) : M V Loc := do
  let ne ← cNe first last
  if ne then do
    let value ← cDeref first
    let pos ← Deq.insert T v pos value
    let f ← ldP (v, 3)
    if pos = f then pure pos else do
    let _ ← cInc first
    deqInsertLoop T v (padd pos 1) first last
  else pure pos
partial_fixpoint

/-- `c_deque_insert_range`, c_deque.c:827-843 -/
def deqInsertRange (T : Nat → Ops V) (v : Addr) (pos : Loc) (first last : Addr) : M V Loc :=
  if v = 0 then pure pos else do
  let ok ← Deq.isValidPos v pos
  if !ok then Deq.dend v else deqInsertLoop T v pos first last

/-! ## proofs -/

theorem isParam_ne {k : Kind} {a : Nat} {F : HProp V} {h : Heap V} (hh : (isParam k ty a ∗ F) h) : a ≠ 0 := by
  unfold isParam at hh
  obtain ⟨_, _, _, _, h1, _⟩ := hh
  obtain ⟨_, _, _, _, h1, _⟩ := h1
  exact h1.1

theorem isIter_param {k k' : Kind} {a : Nat} : Triple (V := V) nf (isParam k' ty a) (isIter k a) (fun r => ⌜r = decide (k = k')⌝ ∗ isParam k' ty a) := by
  rw [← sep_emp (isParam k' ty a)]
  refine Triple.fact (fun h hh => isParam_ne hh) fun ha => ?_
  unfold isIter
  rw [if_neg ha]
  unfold isParam
  step
  by_cases h1 : k'.cate = k.cate
  · rw [if_neg (by simp [h1])]
    step
    apply Triple.ret
    cancel
    by_cases h2 : k = k'
    · simp [h2]
    · simp only [h2, decide_false, beq_eq_false_iff_ne]
      exact fun h => h2 (kind_type_inj h).symm
  · rw [if_pos (by simp [h1])]
    apply Triple.ret
    cancel
    symm
    simp only [decide_eq_false_iff_not]
    rintro rfl
    exact h1 rfl

theorem opsOf_param {k : Kind} {a : Nat} : Triple (V := V) nf (isParam k ty a) (opsOf a) (fun r => ⌜r = k⌝ ∗ isParam k ty a) := by
  rw [← sep_emp (isParam k ty a)]
  refine Triple.fact (fun h hh => isParam_ne hh) fun ha => ?_
  unfold opsOf
  rw [if_neg ha]
  unfold isParam
  step
  rw [tableAt_ops]
  apply Triple.ret
  cancel

theorem ldPay_bad {P : HProp V} {a : Nat} (h : NotIn (a, 5) P) : Bad P (ldPay a) := by
  intro s _ hs
  unfold ldPay
  refine bind_error ?_
  have h1 := h _ hs
  simp [load, Bind.bind, StateT.bind, ExceptT.bind, ExceptT.mk, Option.bind, ExceptT.bindCont, h1,
      get, getThe, MonadStateOf.get, StateT.get, Pure.pure, ExceptT.pure, ub, fault]

theorem param_notIn {k : Kind} {a x : Nat} : NotIn (V := V) (x, 5) (isParam k ty a) := by
  unfold isParam
  refine NotIn.sep ?_ (NotIn.sep ?_ (NotIn.sep ?_ (NotIn.sep ?_ ?_)))
  all_goals exact NotIn.pts (by simp)

/-- reading through a parameter leaves its four members -/
theorem cDeref_bad {k : Kind} {x : Nat} {F : HProp V} (hF : NotIn (x, 5) F) : Bad (isParam k ty x ∗ F) (cDeref x) := by
  have hN : NotIn (x, 5) (isParam k ty x ∗ F) := NotIn.sep param_notIn hF
  unfold cDeref
  refine Bad.bind opsOf_param fun r => ?_
  rw [sep_assoc]
  apply Bad.pure_left
  rintro rfl
  unfold dereference
  refine Bad.bind isIter_param fun b => ?_
  rw [sep_assoc]
  apply Bad.pure_left
  rintro rfl
  rw [decide_eq_true rfl, if_pos rfl]
  exact Bad.head (ldPay_bad hN)

theorem cNe_then_bad {α : Type} {k k' : Kind} {ty' x y : Nat} {F : HProp V} {K : Bool → M V α} (hF : NotIn (x, 5) F) (hK : Bad (isParam k ty x ∗ isParam k' ty' y ∗ F) (K true)) :
    Bad (isParam k ty x ∗ isParam k' ty' y ∗ F) (cNe x y >>= K) := by
  have hN : NotIn (x, 5) (isParam k ty x ∗ isParam k' ty' y ∗ F) := NotIn.sep param_notIn (NotIn.sep param_notIn hF)
  unfold cNe notEqual equal
  simp only [bind_assoc]
  refine Bad.bind opsOf_param fun r => ?_
  rw [sep_assoc]
  apply Bad.pure_left
  rintro rfl
  refine Bad.bind isIter_param fun b => ?_
  rw [sep_assoc]
  apply Bad.pure_left
  rintro rfl
  simp only [decide_true, Bool.not_true, Bool.false_eq_true, ↓reduceIte]
  rw [sep_left_comm, bind_assoc]
  refine Bad.bind isIter_param fun b => ?_
  rw [sep_assoc]
  apply Bad.pure_left
  rintro rfl
  rw [sep_left_comm]
  by_cases hk : r = k'
  · simp only [hk, decide_true, Bool.not_true, Bool.false_eq_true, ↓reduceIte, bind_assoc]
    exact Bad.head (ldPay_bad (hk ▸ hN))
  · simp only [hk, decide_false, Bool.not_false, ↓reduceIte, pure_bind]
    exact hK

theorem vecInsertLoop_bad {k k' : Kind} {ty' x y : Nat} {p : Loc} {F : HProp V} (hF : NotIn (x, 5) F) :
    Bad (isParam k ty x ∗ isParam k' ty' y ∗ F) (vecInsertLoop T v p x y) := by
  rw [vecInsertLoop]
  refine cNe_then_bad hF ?_
  rw [if_pos rfl]
  exact Bad.head (cDeref_bad (NotIn.sep param_notIn hF))

theorem deqInsertLoop_bad {k k' : Kind} {ty' x y : Nat} {p : Loc} {F : HProp V} (hF : NotIn (x, 5) F) :
    Bad (isParam k ty x ∗ isParam k' ty' y ∗ F) (deqInsertLoop T v p x y) := by
  rw [deqInsertLoop]
  refine cNe_then_bad hF ?_
  rw [if_pos rfl]
  exact Bad.head (cDeref_bad (NotIn.sep param_notIn hF))

end CC.Iter
