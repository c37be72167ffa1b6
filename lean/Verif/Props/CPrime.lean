import Verif.Prime.Spec
import Verif.Props.CNull
import Verif.Props.CVector
/-!
# C81: the built-in element types

`isNum t p x` (Verif/Prime/Spec.lean) says that at `p` there is an object of the C type `t` with value `x`.
-/
namespace CC.Prime
open CC CC.Tac
open CC.Props (Aborts)
variable {nf : Prop} {t : CType} {p d s : Loc} {x y : Num}

/-- `create` makes a zero of whatever bits were in the storage. -/
theorem C81_create {z : Val Num} : Triple nf (pts p z) (create t p)
    (fun _ => isNum t p (if t = .float ∨ t = .double then .flt (.nth 0) else .int 0)) := by
  have h : (if t = .float ∨ t = .double then .flt (.nth 0) else .int 0) = t.zero := by cases t <;> rfl
  rw [h]
  exact create_spec

/-- width in bits of the integer types on an LP64 platform -/
def bits : CType → Option Nat
  | .char | .schar | .uchar => some 8
  | .short | .sshort | .ushort => some 16
  | .int | .sint | .uint => some 32
  | .long | .slong | .ulong => some 64
  | .float | .double => none

/-- the unsigned types -/
def unsigned (t : CType) : Prop := t = .uchar ∨ t = .ushort ∨ t = .uint ∨ t = .ulong

/-- An object of an unsigned type of `w` bits holds exactly the integers from 0 to 2^w - 1, one of a signed type exactly those from -2^(w-1) to 2^(w-1) - 1; every
one of them can be copied, assigned and compared (the theorems around this one are about all the values an object can hold). -/
theorem C81_range {w : Nat} (h : bits t = some w) (v : Num) :
    t.Holds v ↔ ∃ z : Int, v = .int z ∧
      ((unsigned t ∧ 0 ≤ z ∧ z < 2 ^ w) ∨ (¬ unsigned t ∧ -2 ^ (w - 1) ≤ z ∧ z < 2 ^ (w - 1))) := by
  cases v with
  | int z =>
    constructor
    · intro hh
      refine ⟨z, rfl, ?_⟩
      revert hh
      cases t <;> simp only [bits, Option.some.injEq, reduceCtorEq] at h <;> subst h <;>
        simp [CType.Holds, CType.isFloat, CType.lo, CType.hi, unsigned] <;> omega
    · rintro ⟨z', hz, hh⟩
      cases hz
      revert hh
      cases t <;> simp only [bits, Option.some.injEq, reduceCtorEq] at h <;> subst h <;>
        simp [CType.Holds, CType.isFloat, CType.lo, CType.hi, unsigned] <;> omega
  | flt f =>
    constructor
    · intro hh
      revert hh
      cases t <;> simp [bits] at h <;> simp [CType.Holds, CType.isFloat]
    · rintro ⟨z', hz, _⟩
      cases hz

/-- `copy` makes an object with the same value and leaves the source alone. -/
theorem C81_copy {z : Val Num} : Triple nf (isNum t s x ∗ pts d z) (copy t d s) (fun _ => isNum t s x ∗ isNum t d x) := by
  unfold isNum
  xintro h
  refine (copy_spec h).post fun _ => ?_
  cancel

/-- `assign` gives the target the value of the source and returns the target. -/
theorem C81_assign : Triple nf (isNum t s x ∗ isNum t d y) (assign t d s) (fun r => ⌜r = d⌝ ∗ isNum t s x ∗ isNum t d x) := by
  unfold isNum
  xintro h h2
  refine Triple.pre (P' := pts d (.obj (some y)) ∗ pts s (.obj (some x))) (by cancel) ?_
  refine pts_nz fun h0 => ?_
  unfold assign read write
  rw [cassert_ok h0]
  simp only [pure_bind]
  split
  · simp only [bind_assoc]
    steps
    rw [if_pos h]
    steps
    apply Triple.ret
    cancel
  · rename_i he
    have he : d = s := Classical.not_not.1 he
    subst he
    intro st F _ hh
    exfalso
    rw [sep_assoc] at hh
    exact pts_pts_ne hh rfl

/-- Assigning an object to itself changes nothing. -/
theorem C81_assign_self : Triple nf (isNum t d x) (assign t d d) (fun r => ⌜r = d⌝ ∗ isNum t d x) := by
  unfold isNum
  xintro h
  rw [← sep_emp (pts _ _)]
  refine pts_nz fun h0 => ?_
  unfold assign
  rw [cassert_ok h0]
  simp only [pure_bind, ne_eq, not_true_eq_false, ↓reduceIte]
  apply Triple.ret
  cancel

/-- `less` is the operator `<` on the values; the objects may be the same. -/
theorem C81_less : Triple nf (isNum t p x ∗ isNum t d y) (less t p d) (fun r => ⌜r = x.lt y⌝ ∗ isNum t p x ∗ isNum t d y) := by
  unfold isNum
  xintro h h2
  refine pts_nz fun h0 => ?_
  rw [sep_comm]
  refine pts_nz fun h1 => ?_
  unfold less read
  rw [cassert_ok h0, cassert_ok h1]
  steps
  rw [if_pos h]
  steps
  rw [if_pos h2]
  apply Triple.ret
  cancel

theorem C81_less_self : Triple nf (isNum t p x) (less t p p) (fun r => ⌜r = false⌝ ∗ isNum t p x) := by
  unfold isNum
  xintro h
  rw [← sep_emp (pts _ _)]
  refine pts_nz fun h0 => ?_
  unfold less read
  rw [cassert_ok h0]
  steps
  rw [if_pos h]
  steps
  rw [if_pos h]
  apply Triple.ret
  have : x.lt x = false := by
    cases x with
    | int z => simp [Num.lt]
    | flt f => cases f <;> simp [Num.lt]
  rw [this]
  cancel

/-- `equal` is the operator `==` on the values. -/
theorem C81_equal : Triple nf (isNum t p x ∗ isNum t d y) (equal t p d) (fun r => ⌜r = x.eq y⌝ ∗ isNum t p x ∗ isNum t d y) := by
  unfold isNum
  xintro h h2
  refine pts_nz fun h0 => ?_
  rw [sep_comm]
  refine pts_nz fun h1 => ?_
  unfold equal read
  rw [cassert_ok h0, cassert_ok h1]
  steps
  rw [if_pos h]
  steps
  rw [if_pos h2]
  apply Triple.ret
  cancel

/-- A whole life of an object on the heap, with any allocator: nothing is left behind. -/
theorem C81_lifecycle : Triple nf emp
    (do let a ← allocate
        if a ≠ 0 then do
          create t (a, 1)
          destroy (a, 1)
        deallocate a) (fun _ => emp) := by
  unfold allocate deallocate
  refine mallocO_spec (fun _ => ?_) (fun a ha => ?_)
  · simp only [ne_eq, not_true_eq_false, ↓reduceIte, pure_bind]
    unfold free
    rw [if_pos rfl]
    apply Triple.ret
    cancel
  · simp only [ne_eq, ha, not_false_eq_true, ↓reduceIte, bind_assoc, raws]
    simp only [sep_emp]
    xintro z
    call (create_spec (nf := nf) (t := t) (p := (a, 1)) (x := z))
    intro _
    unfold isNum
    xintro _
    call (destroy_spec (nf := nf) (p := (a, 1)) (x := .obj (some t.zero)))
    intro _
    call (free1 (nf := nf) (a := a) (u := (.obj (some t.zero) : Val Num)))
    intro _
    cancel

/-- The order of the integer types is the order of the integers: a strict weak order in which only equal numbers are equivalent, and `equal` is
equality. -/
theorem C81_integer_order (h : t.isFloat = false) (hx : t.Holds x) (hy : t.Holds y) :
    ∃ a b : Int, x = .int a ∧ y = .int b ∧ x.lt y = decide (a < b) ∧ x.eq y = decide (a = b) := by
  cases x with
  | flt f => unfold CType.Holds at hx; simp [h] at hx
  | int a => cases y with
    | flt f => unfold CType.Holds at hy; simp [h] at hy
    | int b => exact ⟨a, b, rfl, rfl, rfl, rfl⟩

/-- the values of a type that are numbers -/
def Real (t : CType) (x : Num) : Prop := t.Holds x ∧ x ≠ .flt .nan

/-- On the numbers of a type (all its values for the integer types, all but not-a-number for `float` and `double`) `less` is a strict weak order, `equal` is
equality, and two numbers are equal iff none is less than the other: what sorting, searching, sets and maps require. -/
theorem C81_order_partial (t : CType) :
    StrictWeak (fun x y : {x : Num // Real t x} => x.1.lt y.1) ∧
    ∀ x y : {x : Num // Real t x}, (x.1.eq y.1 = true ↔ x = y) ∧ (x.1.eq y.1 = true ↔ x.1.lt y.1 = false ∧ y.1.lt x.1 = false) := by
  have key : ∀ x : {x : Num // Real t x}, (∃ a, x.1 = .int a ∧ t.isFloat = false) ∨ ∃ a, x.1 = .flt (.nth a) ∧ t.isFloat = true := by
    rintro ⟨x, h1, h2⟩
    cases x with
    | int a => exact .inl ⟨a, rfl, h1.1⟩
    | flt f => cases f with
      | nan => exact absurd rfl h2
      | nth k => exact .inr ⟨k, rfl, h1⟩
  refine ⟨⟨fun a => ?_, fun a b c => ?_, fun a b c => ?_⟩, fun x y => ⟨?_, ?_⟩⟩
  · rcases key a with ⟨z, h, _⟩ | ⟨z, h, _⟩ <;> simp [h, Num.lt]
  · rcases key a with ⟨z, h, h'⟩ | ⟨z, h, h'⟩ <;> rcases key b with ⟨z2, h2, h2'⟩ | ⟨z2, h2, h2'⟩ <;>
      rcases key c with ⟨z3, h3, h3'⟩ | ⟨z3, h3, h3'⟩ <;> simp [h, h2, h3, Num.lt] <;> simp_all <;> omega
  · rcases key a with ⟨z, h, h'⟩ | ⟨z, h, h'⟩ <;> rcases key b with ⟨z2, h2, h2'⟩ | ⟨z2, h2, h2'⟩ <;>
      rcases key c with ⟨z3, h3, h3'⟩ | ⟨z3, h3, h3'⟩ <;> simp [h, h2, h3, Num.lt] <;> simp_all <;> omega
  · rcases key x with ⟨z, h, h'⟩ | ⟨z, h, h'⟩ <;> rcases key y with ⟨z2, h2, h2'⟩ | ⟨z2, h2, h2'⟩ <;>
      simp [Subtype.ext_iff, h, h2, Num.eq] <;> simp_all
  · rcases key x with ⟨z, h, h'⟩ | ⟨z, h, h'⟩ <;> rcases key y with ⟨z2, h2, h2'⟩ | ⟨z2, h2, h2'⟩ <;>
      simp [h, h2, Num.eq, Num.lt] <;> simp_all <;> omega

/-- for the integer types these are all values -/
theorem C81_integers_real (h : t.isFloat = false) (hx : t.Holds x) : Real t x := by
  refine ⟨hx, ?_⟩
  rintro rfl
  unfold CType.Holds at hx
  simp [h] at hx

/-- With not-a-number the order of `float` and `double` is no strict weak order: it is equivalent to all numbers, though these are not all equivalent. -/
theorem C81_float_violated (h : t.isFloat = true) :
    ∃ a b c : Num, t.Holds a ∧ t.Holds b ∧ t.Holds c ∧
      (a.lt b = false ∧ b.lt a = false) ∧ (b.lt c = false ∧ c.lt b = false) ∧ a.lt c = true ∧ b.eq b = false := by
  exact ⟨.flt (.nth 0), .flt .nan, .flt (.nth 1), h, h, h, ⟨rfl, rfl⟩, ⟨rfl, rfl⟩, rfl, rfl⟩

/-- NULL targets and NULL operands of a comparison are refused. -/
theorem C81_null_partial (i : Nat) (t : CType) (q : Loc) :
    Aborts (create t (0, i)) ∧ Aborts (copy t (0, i) q) ∧ Aborts (destroy (0, i)) ∧ Aborts (assign t (0, i) q) ∧
    Aborts (less t (0, i) q) ∧ Aborts (equal t (0, i) q) ∧ (q.1 ≠ 0 → Aborts (less t q (0, i))) ∧ (q.1 ≠ 0 → Aborts (equal t q (0, i))) := by
  refine ⟨fun s => rfl, fun s => rfl, fun s => rfl, fun s => rfl, fun s => rfl, fun s => rfl, fun h s => ?_, fun h s => ?_⟩
  · unfold less; rw [cassert_ok h]; rfl
  · unfold equal; rw [cassert_ok h]; rfl

/-- A NULL source is not: the second assertion, which is meant for it, tests the target again. -/
theorem C81_null_source_violated (i : Nat) (hd : d.1 ≠ 0) (st : Mem Num) :
    copy t d (0, i) st = some (.error .ub) ∧ assign t d (0, i) st = some (.error .ub) := by
  have hl : ldV (0, i) st = some (.error .ub) := by
    have := ldV_unalloc (k := fun v => (pure v : M Num Num)) (st.hnul i)
    rwa [bind_pure] at this
  have hr : read t (0, i) st = some (.error .ub) := by
    unfold read
    exact bind_error hl
  constructor
  · unfold copy
    rw [cassert_ok hd]
    simp only [pure_bind]
    exact bind_error hr
  · unfold assign
    rw [cassert_ok hd]
    have : d ≠ (0, i) := fun h => hd (by rw [h])
    simp only [pure_bind, this, ne_eq, not_false_eq_true, ↓reduceIte, bind_assoc]
    exact bind_error hr

/-- The table is a proper element type of plain data, so that all theorems about vectors and deques with plain elements apply to it; as an instance, every history of operations on
a vector of numbers. -/
theorem C81_vector {t : CType} {v b cap tyid : Nat} {ws : List Num} {R : HProp Num} {l : List Vec.Op} {ρ : Loc → Num}
    (hv : Vec.ValidOps (spec (nf := nf) t) R ρ l ⟨cap, ws⟩) :
    (spec (nf := nf) t).Plain ∧
    Triple nf (Vec.isVec (T := fun _ => ops t) (ty := tyid) (spec (nf := nf) t) v b cap ws ∗ R) (Vec.runOps (fun _ => ops t) v l)
      (fun _ => ∃ₛ b' cap' ws', ⌜Vec.Steps t.zero ρ nf l ⟨cap, ws⟩ ⟨cap', ws'⟩⌝ ∗ Vec.isVec (T := fun _ => ops t) (ty := tyid) (spec (nf := nf) t) v b' cap' ws' ∗ R) :=
  ⟨spec_plain, Vec.C16_history (T := fun _ => ops t) (ty := tyid) (e := spec t) hv⟩

/-- the constructed elements of such a vector are objects of the type -/
theorem C81_vector_elements : cell (spec (nf := nf) t) p x = isNum t p x := spec_cell

/-- the hypotheses are met: two different ints in one block -/
example : (isNum .int (1, 1) (.int 3) ∗ isNum .int (1, 2) (.int (-4)))
    (fun l => if l = (1, 1) then some (.obj (some (.int 3))) else if l = (1, 2) then some (.obj (some (.int (-4)))) else none) ∧ (Num.int (-4)).lt (.int 3) = true := by
  refine ⟨?_, rfl⟩
  unfold isNum
  rw [sep_assoc]
  refine hpure_sep_apply.2 ⟨by decide, ?_⟩
  rw [sep_comm, sep_assoc]
  refine hpure_sep_apply.2 ⟨by decide, ?_⟩
  refine ⟨fun l => if l = (1, 2) then some (.obj (some (.int (-4)))) else none, fun l => if l = (1, 1) then some (.obj (some (.int 3))) else none, ?_, ?_, ?_, ?_⟩
  · intro l; by_cases h : l = (1, 1)
    · left; subst h; rfl
    · right; exact if_neg h
  · funext l
    by_cases h : l = (1, 1)
    · subst h; rfl
    · by_cases h2 : l = (1, 2)
      · subst h2; rfl
      · simp [Heap.union, h, h2]
  · exact ⟨by decide, rfl⟩
  · exact ⟨by decide, rfl⟩

end CC.Prime
