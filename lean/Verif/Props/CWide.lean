import Verif.Vec.Wide
import Verif.Deq.Wide
import Verif.Vec.Spec5
import Verif.Props.CVector
import Verif.Props.CDeque
import Verif.Props.CScarce
/-!
# C85 Sizes at the limit of `size_t`

A user relies on: a request for more elements than the address space can hold is refused like any other request that cannot be met (the container stays as it is, the
creating functions return NULL or an empty container); smaller requests are not affected by the width of `size_t`.

`w` is the number of values of `size_t`, `z` the size of an element in bytes.  The programs ending in `W` (Vec/Wide, Deq/Wide) are the functions of the library with every
size computed modulo `w`; the programs without `W` are the ones all the other theorems are about, which compute with unbounded numbers.  `SameOn P m m'`: from every
memory satisfying `P`, whatever the allocator answers, `m` and `m'` have the same outcome and leave the same state.  `Bad P m`: if requests are granted, `m` ends in
undefined behaviour.  `Closed F`: the rest of the memory consists of whole blocks.
-/
namespace CC.Vec
open CC CC.Tac
variable {V W : Type} {T : Nat → Ops V} {ty : Nat} {v b cap z w : Nat} {ws : List W} {F : HProp V}

section
variable {e : ElemSpec False (T ty) W}

/-- Resizing to a number of elements whose size in bytes fits into `size_t`, and likewise twice the capacity: no computation wraps.  (Missing: larger counts, see
`C85_vector_resize_violated`.) -/
theorem C85_vector_resize_partial {count : Nat} {value : Loc} (hz : 0 < z) (hcap : cap * 2 * z < w) (hn : count * z < w) :
    SameOn (isVec e v b cap ws ∗ F) (resizeWithValueW z w T v count value) (resizeWithValue T v count value) := resizeWithValue_same hz hcap hn

/-- The same for reserve. -/
theorem C85_vector_reserve_partial {count : Nat} (hz : 0 < z) (hcap : cap * 2 * z < w) (hn : count * z < w) :
    SameOn (isVec e v b cap ws ∗ F) (reserveW z w T v count) (reserve T v count) := reserve_same hz hcap hn

/-- The same for create_n. -/
theorem C85_vector_create_n_partial (e : ElemSpec False (T ty) W) {count : Nat} {value : Loc} (hz : 0 < z) (hn : count * z < w) :
    SameOn F (createNW z w T ty count value) (createN T ty count value) := createN_same e hz hn

/-- The same for create_from_array. -/
theorem C85_vector_create_from_array_partial (e : ElemSpec False (T ty) W) {count : Nat} {values : Loc} (hz : 0 < z) (hn : count * z < w) :
    SameOn F (createFromArrayW z w T ty values count) (createFromArray T ty values count) := createFromArray_same e hz hn

/-- The same for insert_n, at any position. -/
theorem C85_vector_insert_n_partial {pos : Loc} {count : Nat} {value : Loc} (hz : 0 < z) (hcap : cap * 2 * z < w) (hn : (ws.length + count) * z < w) :
    SameOn (isVec e v b cap ws ∗ F) (insertNW z w T v pos count value) (insertN T v pos count value) := insertN_same hz hcap hn

/-- push_back is not affected by the width of `size_t` as long as the storage can be doubled. -/
theorem C85_vector_push_back {value : Loc} (hz : 0 < z) (hcap : cap * 2 * z < w) (hn : (ws.length + 1) * z < w) :
    SameOn (isVec e v b cap ws ∗ F) (pushBackW z w T v value) (pushBack T v value) := pushBack_same hz hcap hn

end

/-- Resizing to a count whose size in bytes does not fit into `size_t` (and that is at least twice the capacity) is undefined behaviour: a block that is too small is
requested, and granted, and the new elements are written behind it. -/
theorem C85_vector_resize_violated {e : ElemSpec True (T ty) W} {t : Ty V} (hT : T ty = plainOps t) (hp : e.Plain) (hF : Closed F) {count : Nat} {value : Loc} (hz : 0 < z)
    (hcw : cap * z < w) (hc : count < w) (h2 : cap * 2 ≤ count) (hbig : w ≤ count * z) :
    Bad (isVec e v b cap ws ∗ F) (resizeWithValueW z w T v count value) := resize_wide_bad hT hp hF hz hcw hc h2 hbig

/-- create_n with such a count. -/
theorem C85_vector_create_n_violated {t : Ty V} (hT : T ty = plainOps t) (e : ElemSpec True (T ty) W) (hp : e.Plain) (hty : ty ≠ 0) (hF : Closed F) {count : Nat} {value : Loc}
    (hv0 : value.1 ≠ 0) (hz : 0 < z) (hw : 0 < w) (hc : count < w) (hbig : w ≤ count * z) : Bad F (createNW z w T ty count value) :=
  createN_wide_bad hT e hp hty hF hv0 hz hw hc hbig

/-- create_from_array with such a length. -/
theorem C85_vector_create_from_array_violated {t : Ty V} (hT : T ty = plainOps t) (e : ElemSpec True (T ty) W) (hp : e.Plain) (hty : ty ≠ 0) (hF : Closed F) {count : Nat}
    {values : Loc} (hv0 : values.1 ≠ 0) (hz : 0 < z) (hw : 0 < w) (hc : count < w) (hbig : w ≤ count * z) : Bad F (createFromArrayW z w T ty values count) :=
  createFromArray_wide_bad hT e hp hty hF hv0 hz hw hc hbig

/-- max_size is the largest value of `size_t`, … -/
theorem C85_max_size_partial (hw : 0 < w) : maxSize w < w ∧ ∀ n < w, n ≤ maxSize w := by
  unfold maxSize
  rw [Nat.mod_eq_of_lt (by omega)]
  exact ⟨by omega, fun n h => by omega⟩

/-- … but no promise: with elements of at least two bytes, resizing a vector to max_size elements is undefined behaviour (whenever its own storage is at most half of that). -/
theorem C85_max_size_violated {e : ElemSpec True (T ty) W} {t : Ty V} (hT : T ty = plainOps t) (hp : e.Plain) (hF : Closed F) {value : Loc} (hz : 2 ≤ z)
    (hcw : cap * z < w) (h2 : cap * 2 < w) (hw : 2 ≤ w) : Bad (isVec e v b cap ws ∗ F) (resizeWithValueW z w T v (maxSize w) value) := by
  have h : maxSize w = w - 1 := by unfold maxSize; exact Nat.mod_eq_of_lt (by omega)
  refine C85_vector_resize_violated hT hp hF (by omega) hcw (by omega) (by omega) ?_
  rw [h]
  have : (w - 1) * 2 ≤ (w - 1) * z := Nat.mul_le_mul_left _ hz
  omega

/-! ### Non-vacuity -/

/-- 4-byte integers with a 64-bit `size_t`: create a vector and resize it to 2^62 + 1 elements (four bytes are requested) -/
example : Bad (V := Nat) emp (do let v ← create 1; resizeW 4 (2 ^ 64) (fun _ => plainOps intTy) v (2 ^ 62 + 1)) :=
  Bad.create (T := fun _ => plainOps intTy) (plainSpec (nf := True) intTy) (by simp) fun _ _ =>
    C85_vector_resize_violated rfl (plain_plain intTy) .emp (by omega) (by omega) (by omega) (by omega) (by omega)

/-- … in a memory that exists -/
example : ∃ m : Mem Nat, (do let v ← create 1; resizeW 4 (2 ^ 64) (fun _ => plainOps intTy) v (2 ^ 62 + 1) : M Nat Unit) m = some (.error .ub) := by
  obtain ⟨m, ho, hm⟩ := exists_array ([] : List Nat) (fun _ => 1)
  refine ⟨m, ?_⟩
  refine Bad.create (T := fun _ => plainOps intTy) (plainSpec (nf := True) intTy) (by simp) (fun _ _ => ?_) m (fun t => by rw [ho]; simp) hm
  exact C85_vector_resize_violated rfl (plain_plain intTy) .emp (by omega) (by omega) (by omega) (by omega) (by omega)

/-- The contract of push_back carries over: a vector of 4-byte integers with at most 2^60 slots. -/
theorem C85_vector_push_back_contract {t : Ty V} {v b cap : Nat} {ws : List V} {value : Loc} {x : V} (hv0 : value.1 ≠ 0) (hcap : cap ≤ 2 ^ 60) :
    Triple False (isVec (T := fun _ => plainOps t) (ty := ty) (plainSpec (nf := False) t) v b cap ws ∗ cell (plainSpec (nf := False) t) value x)
      (pushBackW 4 (2 ^ 64) (fun _ => plainOps t) v value)
      (fun _ => ∃ₛ b' cap' ws', ⌜Res False (ws.length = cap) b cap ws (if ws.length = cap then newCap cap 1 cap else cap) (ws ++ [x]) b' cap' ws'⌝ ∗
        isVec (T := fun _ => plainOps t) (ty := ty) (plainSpec (nf := False) t) v b' cap' ws' ∗ cell (plainSpec (nf := False) t) value x) := by
  refine Triple.of_same (fun F => ?_) (pushBack_spec hv0 (Or.inl (plain_plain t)))
  rw [sep_assoc]
  refine SameOn.fact (p := ws.length ≤ cap) (fun h hh => vec_cap hh) fun hle => ?_
  exact pushBack_same (by omega) (by omega) (by omega)

/-- ask for max_size elements -/
example : Bad (V := Nat) emp (do let v ← create 1; resizeW 4 (2 ^ 64) (fun _ => plainOps intTy) v (maxSize (2 ^ 64))) :=
  Bad.create (T := fun _ => plainOps intTy) (plainSpec (nf := True) intTy) (by simp) fun _ _ =>
    C85_max_size_violated rfl (plain_plain intTy) .emp (by omega) (by omega) (by omega) (by omega)

end CC.Vec

namespace CC.Deq
open CC CC.Tac
open CC.Vec (intTy)
variable {V W : Type} {T : Nat → Ops V} {ty : Nat} {v b lo hi z w : Nat} {ws : List W} {F : HProp V}

section
variable {e : ElemSpec False (T ty) W}

/-- Resizing a deque to a number of elements whose doubled size in bytes fits into `size_t`. -/
theorem C85_deque_resize_partial {count : Nat} {value : Loc} (hz : 0 < z) (hcap : (lo + ws.length + hi) * 2 * z < w) (hn : count * 2 * z < w) :
    SameOn (isDeq e v b lo hi ws ∗ F) (resizeWithValueW z w T v count value) (resizeWithValue T v count value) := resizeWithValue_same hz hcap hn

/-- create_from -/
theorem C85_deque_create_from_partial (e : ElemSpec False (T ty) W) {count : Nat} {values : Loc} (hz : 0 < z) (hn : count * 2 * z < w) :
    SameOn F (createFromW z w T ty values count) (createFrom T ty values count) := createFrom_same e hz hn

/-- insert_n, at any position -/
theorem C85_deque_insert_n_partial {pos : Loc} {count : Nat} {value : Loc} (hz : 0 < z) (hcap : (lo + ws.length + hi) * 2 * z < w)
    (hn : (ws.length + count * 2) * z < w) :
    SameOn (isDeq e v b lo hi ws ∗ F) (insertNW z w T v pos count value) (insertN T v pos count value) := insertN_same hz hcap hn

/-- push_back and push_front are not affected by the width of `size_t` as long as the storage can be doubled. -/
theorem C85_deque_push_back {value : Loc} (hz : 0 < z) (hcap : (lo + ws.length + hi) * 2 * z < w) (hn : (ws.length + 2) * z < w) :
    SameOn (isDeq e v b lo hi ws ∗ F) (pushBackW z w T v value) (pushBack T v value) := pushBack_same hz hcap hn

theorem C85_deque_push_front {value : Loc} (hz : 0 < z) (hcap : (lo + ws.length + hi) * 2 * z < w) (hn : (ws.length + 2) * z < w) :
    SameOn (isDeq e v b lo hi ws ∗ F) (pushFrontW z w T v value) (pushFront T v value) := pushFront_same hz hcap hn

end

/-- Resizing a fresh deque to a count whose doubled size in bytes does not fit into `size_t` is undefined behaviour, although half of it may fit. -/
theorem C85_deque_resize_violated {e : ElemSpec True (T ty) W} {t : Ty V} (hT : T ty = plainOps t) (hp : e.Plain) (hF : Closed F) {count : Nat} {value : Loc} (hz : 0 < z)
    (hc : count < w) (hbig : w ≤ count * 2 * z) : Bad (isDeq e v b 0 0 [] ∗ F) (resizeWithValueW z w T v count value) := resize_wide_bad hT hp hF hz hc hbig

/-- create_from with such a length -/
theorem C85_deque_create_from_violated {t : Ty V} (hT : T ty = plainOps t) (e : ElemSpec True (T ty) W) (hp : e.Plain) (hty : ty ≠ 0) (hF : Closed F) {count : Nat} {values : Loc}
    (hv0 : values.1 ≠ 0) (hz : 0 < z) (hw : 0 < w) (hc : count < w) (hbig : w ≤ count * 2 * z) : Bad F (createFromW z w T ty values count) :=
  createFrom_wide_bad hT e hp hty hF hv0 hz hw hc hbig

/-! ### Non-vacuity -/

/-- 4-byte integers with a 64-bit `size_t`: create a deque and resize it to 2^61 + 1 elements -/
example : ∃ m : Mem Nat, (do let v ← create 1; resizeW 4 (2 ^ 64) (fun _ => plainOps intTy) v (2 ^ 61 + 1) : M Nat Unit) m = some (.error .ub) := by
  obtain ⟨m, ho, hm⟩ := exists_array ([] : List Nat) (fun _ => 1)
  refine ⟨m, ?_⟩
  refine (Bad.pre (P' := emp ∗ emp) (by rw [emp_sep]; exact ent_refl _) (Bad.bind (create_spec (T := fun _ => plainOps intTy) (e := plainSpec (nf := True) intTy) (ty := 1) (by simp))
    fun v => ?_)) m (fun t => by rw [ho]; simp) hm
  rw [sep_assoc]
  refine Bad.pure_left fun hv => ?_
  rw [if_neg fun h => hv h trivial]
  exact C85_deque_resize_violated rfl (plain_plain intTy) .emp (by omega) (by omega) (by omega)

/-- … and a deque of three 4-byte integers made by the API is within the bounds -/
example : ∃ (m : Mem Nat) (v b lo hi : Nat) (R : HProp Nat),
    (isDeq (T := fun _ => plainOps intTy) (ty := 1) (plainSpec (nf := False) intTy) v b lo hi [0, 0, 0] ∗ R) m.cells ∧ (lo + 3 + hi) * 2 * 4 < 2 ^ 64 := by
  obtain ⟨m, v, b, v2, b2, ho, hm⟩ := exists_deqs (T := fun _ => plainOps intTy) (ty := 1) (plainSpec (nf := True) intTy) (plain_plain _) (by simp) 3 0 0 0
  rw [deq_nf (nf' := False)] at hm
  exact ⟨m, v, b, 0, 0, _, hm, by omega⟩

end CC.Deq
