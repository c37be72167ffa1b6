import Verif.Core.Bad
import Verif.Spec.Order
/-!
# Iterators and ranges

The algorithms of `/repo/algorithm` are generic: they access containers only through iterators (`c_iterator_t`, include/c_def.h:100-140 and the
`C_ITER_*` macros, c_def.h:273-329).  Here a container is given by its *slots*: `c i` is the location of the element in position `i` (in iteration order), whatever
the container is (consecutive slots of one block for vectors and deques, the value cells of the nodes for lists); an iterator into it is a position.
Increment, decrement, advance, distance and comparison are arithmetic on positions, dereferencing gives the location `c i`, and reading or
assigning through it is an access to the memory (undefined behaviour if there is no constructed element).

Simplifications: the shadow copies of iterators (`__C_ALGO_BEGIN_n`, `C_ITER_COPY`) and temporaries for elements, which the code allocates and frees in each call, are
local variables (so their allocation cannot fail here); element assignment copies the value; predicates and comparisons are pure functions of values;
iterator arguments are not NULL; out-parameters are returned as results.
-/
namespace CC.Algo
open CC CC.Tac
variable {V α β : Type} {nf : Prop}

/-- the slots of a container in iteration order -/
abbrev Slots := Nat → Loc

/-- `value_type->assign(dst, src)` through `C_ITER_DEREF_ASSIGN_V`, c_def.h:311: overwrite a constructed element with a value -/
def wr (l : Loc) (v : V) : M V Unit := do
  let _ ← ldV l
  store l (.obj (some v))

/-- `C_ITER_DEREF_ASSIGN`, c_def.h:312 -/
def asg (dst src : Loc) : M V Unit := do
  let v ← ldV src
  wr dst v

/-- `C_ITER_DEC`, c_def.h:297 -/
def dec (i : Nat) : M V Nat := if i = 0 then ub else pure (i - 1)

/-- a call of a comparison / binary predicate on two references -/
def cmp (comp : V → V → Bool) (l r : Loc) : M V Bool := do
  let a ← ldV l
  let b ← ldV r
  pure (comp a b)

/-- a call of a unary predicate on a reference -/
def test (pred : V → Bool) (l : Loc) : M V Bool := do
  let a ← ldV l
  pure (pred a)

/-! ## ranges -/

/-- the fragment consists of the elements `vs` in positions `i`, `i + 1`, … of container `c` -/
def seg (c : Slots) : Nat → List V → HProp V
  | _, [] => emp
  | i, v :: vs => pts (c i) (.obj (some v)) ∗ seg c (i + 1) vs

theorem seg_nil {c : Slots} {i : Nat} : seg (V := V) c i [] = emp := rfl
theorem seg_cons {c : Slots} {i : Nat} {v : V} {vs : List V} : seg c i (v :: vs) = (pts (c i) (.obj (some v)) ∗ seg c (i + 1) vs) := rfl

theorem seg_append {c : Slots} {i : Nat} {xs ys : List V} : seg c i (xs ++ ys) = (seg c i xs ∗ seg c (i + xs.length) ys) := by
  induction xs generalizing i with
  | nil => simp [seg_nil]
  | cons x xs ih =>
    rw [List.cons_append, seg_cons, seg_cons, ih, sep_assoc]
    rw [show i + 1 + xs.length = i + (x :: xs).length by simp; omega]

theorem seg_one {c : Slots} {i : Nat} {v : V} : seg c i [v] = pts (c i) (.obj (some v)) := by rw [seg_cons, seg_nil, sep_emp]

/-- In every fragment satisfying `P` the positions `i`, `i + 1`, … of container `c` hold `vs` (so that this range may be read). -/
def Rng (P : HProp V) (c : Slots) (i : Nat) (vs : List V) : Prop := ∀ k (h : k < vs.length), Reads P (c (i + k)) vs[k]

theorem seg_rng {c : Slots} {i : Nat} {vs : List V} : Rng (seg c i vs) c i vs := by
  induction vs generalizing i with
  | nil => intro k h; simp at h
  | cons v vs ih =>
    intro k h
    rw [seg_cons]
    cases k with
    | zero => exact Reads.pts.left
    | succ k =>
      have := ih (i := i + 1) k (by simpa using h)
      rw [show i + 1 + k = i + (k + 1) by omega] at this
      exact this.right

theorem Rng.left {P Q : HProp V} {c : Slots} {i : Nat} {vs : List V} (h : Rng P c i vs) : Rng (P ∗ Q) c i vs := fun k hk => (h k hk).left
theorem Rng.right {P Q : HProp V} {c : Slots} {i : Nat} {vs : List V} (h : Rng Q c i vs) : Rng (P ∗ Q) c i vs := fun k hk => (h k hk).right
theorem Rng.mono {P Q : HProp V} {c : Slots} {i : Nat} {vs : List V} (h : Rng Q c i vs) (he : P ⊢ₛ Q) : Rng P c i vs := fun k hk => (h k hk).mono he

theorem Rng.head {P : HProp V} {c : Slots} {i : Nat} {v : V} {vs : List V} (h : Rng P c i (v :: vs)) : Reads P (c i) v := h 0 (by simp)
theorem Rng.tail {P : HProp V} {c : Slots} {i : Nat} {v : V} {vs : List V} (h : Rng P c i (v :: vs)) : Rng P c (i + 1) vs := by
  intro k hk
  have := h (k + 1) (by simpa using hk)
  rw [show i + (k + 1) = i + 1 + k by omega] at this
  exact this
theorem Rng.drop {P : HProp V} {c : Slots} {i : Nat} {vs : List V} (h : Rng P c i vs) (n : Nat) : Rng P c (i + n) (vs.drop n) := by
  intro k hk
  have := h (n + k) (by simp at hk; omega)
  rw [← Nat.add_assoc] at this
  simpa using this
theorem Rng.prefix {P : HProp V} {c : Slots} {i : Nat} {vs : List V} (h : Rng P c i vs) (n : Nat) : Rng P c i (vs.take n) := by
  intro k hk
  have := h k (by simp at hk; omega)
  simpa using this

/-- reading at a position of a range, anywhere in a program -/
theorem rd {P : HProp V} {c : Slots} {i k : Nat} {vs : List V} {Q : β → HProp V} {K : V → M V β} (h : Rng P c i vs) (hk : k < vs.length)
    (ht : Triple nf P (K vs[k]) Q) : Triple nf P (ldV (c (i + k)) >>= K) Q := ldV_reads (h k hk) ht

theorem cmp_reads {P : HProp V} {l r : Loc} {a b : V} {comp : V → V → Bool} {Q : β → HProp V} {K : Bool → M V β} (h1 : Reads P l a) (h2 : Reads P r b)
    (ht : Triple nf P (K (comp a b)) Q) : Triple nf P (cmp comp l r >>= K) Q := by
  unfold cmp
  simp only [bind_assoc, pure_bind]
  exact ldV_reads h1 (ldV_reads h2 ht)

theorem test_reads {P : HProp V} {l : Loc} {a : V} {pred : V → Bool} {Q : β → HProp V} {K : Bool → M V β} (h1 : Reads P l a)
    (ht : Triple nf P (K (pred a)) Q) : Triple nf P (test pred l >>= K) Q := by
  unfold test
  simp only [bind_assoc, pure_bind]
  exact ldV_reads h1 ht

theorem dec_spec {P : HProp V} {i : Nat} {Q : β → HProp V} {K : Nat → M V β} (ht : Triple nf P (K i) Q) : Triple nf P (dec (i + 1) >>= K) Q := by
  unfold dec
  rw [if_neg (by omega), pure_bind]
  exact ht

theorem dec_pos {P : HProp V} {i : Nat} {Q : β → HProp V} {K : Nat → M V β} (hi : 0 < i) (ht : Triple nf P (K (i - 1)) Q) : Triple nf P (dec i >>= K) Q := by
  unfold dec
  rw [if_neg (by omega), pure_bind]
  exact ht

theorem wr_pts {l : Loc} {v w : V} : Triple nf (pts l (.obj (some v))) (wr l w) (fun _ => pts l (.obj (some w))) := by
  unfold wr
  step
  rw [← bind_pure (store _ _)]
  step
  apply Triple.ret
  cancel

/-- assignment of a value at a position of a range -/
theorem wr_seg {c : Slots} {i k : Nat} {vs : List V} {w : V} (hk : k < vs.length) :
    Triple nf (seg c i vs) (wr (c (i + k)) w) (fun _ => seg c i (vs.set k w)) := by
  obtain ⟨X, v, Y, rfl, rfl⟩ : ∃ X v Y, vs = X ++ v :: Y ∧ X.length = k := ⟨vs.take k, vs[k], vs.drop (k+1), by simp, by simp; omega⟩
  rw [List.set_append_right _ _ (Nat.le_refl _), Nat.sub_self, List.set_cons_zero]
  rw [seg_append, seg_append, seg_cons, seg_cons]
  call (wr_pts (l := c (i + X.length)) (v := v) (w := w))
  intro _
  cancel

end CC.Algo
