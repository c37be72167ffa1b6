import Verif.Core.Same
import Verif.Deq.Starve
import Verif.Deq.Bugs
import Verif.Vec.Wide
/-!
# c_deque.c with `size_t` arithmetic

As `Vec/Wide`: the definitions of `Deq/Model` with the computations of sizes done modulo `w`, the number of values of `size_t`, for elements of `z` bytes.
-/
namespace CC.Deq
open CC CC.Tac
open CC.Vec (nullP freeStorage buf buf_zero buf_ne psub_spec freeStorage_spec capW)
variable {V W α β : Type}

section Model
variable (z w : Nat) (T : Nat → Ops V)

/-- `__reallocate_and_move`, c_deque.c:598-622, with `cap * 2`, `n + size` and the products with `value_size`, and `cap - size` computed in `size_t` -/
def reallocateAndMoveW (v : Addr) (n : Nat) : M V Bool := do
  cassert (v != 0)
  let sz ← size v
  let cap ← capacity v
  let cap := if cap * 2 % w < (n + sz) % w then (n + sz) % w else cap * 2 % w
  let st ← mallocO (wslots z w cap)
  if st = 0 then pure true else do
  let start := padd (st, 1) (wslots z w ((cap + w - sz) % w / 2))
  let s0 ← ldP (v, 2)
  let f0 ← ldP (v, 3)
  let len ← psub f0 s0
  memcpy start s0 len
  let ty ← ldN (v, 5)
  let b ← dbegin v
  let e ← dend v
  destroyLoop (T ty) b e
  let t ← ldP (v, 1)
  freeStorage t
  stP (v, 1) (st, 1)
  stP (v, 2) start
  stP (v, 3) (padd start (wslots z w sz))
  stP (v, 4) (padd (st, 1) (wslots z w cap))
  pure false

/-- `__insert_aux`, c_deque.c:556-596, in `size_t` arithmetic -/
def insertAuxW (v : Addr) (pos : Loc) (n : Nat) (value : Loc) : M V Loc := do
  cassert (v != 0)
  let ty ← ldN (v, 5)
  let ae ← availableEnd v
  if n ≤ ae then do
    let f ← ldP (v, 3)
    let len ← psub f pos
    memmove (padd pos (wslots z w n)) pos len
    fill (T ty) pos n value
    let f ← ldP (v, 3)
    stP (v, 3) (padd f (wslots z w n))
    pure pos
  else do
  let as ← availableStart v
  if n ≤ as then do
    let s ← ldP (v, 2)
    let len ← psub pos s
    let d ← pminus s (wslots z w n)
    memmove d s len
    let s ← ldP (v, 2)
    let d ← pminus s (wslots z w n)
    stP (v, 2) d
    let pos ← pminus pos (wslots z w n)
    fill (T ty) pos n value
    pure pos
  else do
    let s ← ldP (v, 2)
    let h1 ← psub pos s
    let f ← ldP (v, 3)
    let h2 ← psub f pos
    let t ← ldP (v, 1)
    let s ← ldP (v, 2)
    memmove t s h1
    let t ← ldP (v, 1)
    stP (v, 2) t
    let s ← ldP (v, 2)
    memmove (padd (padd s h1) (wslots z w n)) pos h2
    let s ← ldP (v, 2)
    let pos := padd s h1
    fill (T ty) pos n value
    stP (v, 3) (padd (padd pos (wslots z w n)) h2)
    pure pos

/-- `c_deque_resize_with_value`, c_deque.c:933-954, in `size_t` arithmetic -/
def resizeWithValueW (v : Addr) (count : Nat) (value : Loc) : M V Unit :=
  if v = 0 then pure () else do
  let sz ← size v
  if sz < count then do
    let sz ← size v
    let count := count - sz
    let av ← available v
    let failed ← (if av < count then reallocateAndMoveW z w T v (count * 2 % w) else pure false)
    if failed then pure () else do
    let e ← dend v
    let _ ← insertAuxW z w T v e count value
    pure ()
  else do
    let s ← ldP (v, 2)
    let pos := padd s (wslots z w count)
    let ty ← ldN (v, 5)
    let e ← dend v
    destroyLoop (T ty) pos e
    stP (v, 3) pos

/-- `c_deque_resize`, c_deque.c:928-931, in `size_t` arithmetic -/
def resizeW (v : Addr) (count : Nat) : M V Unit := resizeWithValueW z w T v count (0, 0)

/-- `__reserve`, c_deque.c:402-406, in `size_t` arithmetic -/
def reserveW (v : Addr) (newCap : Nat) : M V Unit := do
  cassert (v != 0)
  let cap ← capacity v
  if cap < newCap then resizeW z w T v newCap else pure ()

/-- `c_deque_create_from`, c_deque.c:644-655, in `size_t` arithmetic -/
def createFromW (ty : Nat) (values : Loc) (length : Nat) : M V Addr :=
  if ty = 0 ∨ values.1 = 0 ∨ length = 0 then pure 0 else do
  let v ← create ty
  if v = 0 then pure 0 else do
  reserveW z w T v length
  let s ← ldP (v, 2)
  memcpy s values (wslots z w length)
  pure v

/-- making room in `c_deque_insert_n`, c_deque.c:815-822, in `size_t` arithmetic -/
def insertRoomW (v : Addr) (pos : Loc) (count : Nat) : M V (Option Loc) := do
  let av ← available v
  if av < count then do
    let s ← ldP (v, 2)
    let diff ← psub pos s
    let av ← available v
    let failed ← reallocateAndMoveW z w T v ((count - av) * 2 % w)
    if failed then pure none else do
    let s ← ldP (v, 2)
    pure (some (padd s diff))
  else pure (some pos)

/-- `c_deque_insert_n`, c_deque.c:808-825, in `size_t` arithmetic -/
def insertNW (v : Addr) (pos : Loc) (count : Nat) (value : Loc) : M V Loc :=
  if v = 0 ∨ value.1 = 0 then pure pos else do
  let ok ← isValidPos v pos
  if !ok then dend v else do
  let r ← insertRoomW z w T v pos count
  match r with
  | none => dend v
  | some pos => insertAuxW z w T v pos count value

/-- `c_deque_push_back`, c_deque.c:884-895, in `size_t` arithmetic -/
def pushBackW (v : Addr) (value : Loc) : M V Unit :=
  if v = 0 ∨ value.1 = 0 then pure () else do
  let f ← ldP (v, 3)
  let e ← ldP (v, 4)
  let failed ← (if f = e then reallocateAndMoveW z w T v (1 * 2) else pure false)
  if failed then pure () else do
  let ty ← ldN (v, 5)
  let f ← ldP (v, 3)
  (T ty).copy f value
  let f ← ldP (v, 3)
  stP (v, 3) (padd f 1)

/-- `c_deque_push_front`, c_deque.c:906-917, in `size_t` arithmetic -/
def pushFrontW (v : Addr) (value : Loc) : M V Unit :=
  if v = 0 ∨ value.1 = 0 then pure () else do
  let s ← ldP (v, 2)
  let t ← ldP (v, 1)
  let failed ← (if s = t then reallocateAndMoveW z w T v (1 * 2) else pure false)
  if failed then pure () else do
  let s ← ldP (v, 2)
  let s' ← pminus s 1
  stP (v, 2) s'
  let ty ← ldN (v, 5)
  let s ← ldP (v, 2)
  (T ty).copy s value

end Model

variable {T : Nat → Ops V} {ty : Nat} {v b lo hi z w : Nat} {ws : List W} {F : HProp V}

/-! ## Sizes that fit: nothing changes -/
section Fits
variable {e : ElemSpec False (T ty) W}

theorem s_availableStart {v : Nat} : Still (availableStart v : M V _) := by unfold availableStart; still
theorem s_availableEnd {v : Nat} : Still (availableEnd v : M V _) := by unfold availableEnd; still
theorem s_available {v : Nat} : Still (available v : M V _) := by
  have h1 := @s_availableStart V v; have h2 := @s_availableEnd V v
  unfold available; still
theorem s_isValidPos {v : Nat} {p : Loc} : Still (isValidPos v p : M V _) := by unfold isValidPos; still

theorem realloc_same {n : Nat} (hz : 0 < z) (hcap : (lo + ws.length + hi) * 2 * z < w) (hn : (n + ws.length) * z < w) :
    SameOn (isDeq e v b lo hi ws ∗ F) (reallocateAndMoveW z w T v n) (reallocateAndMove T v n) := by
  unfold reallocateAndMoveW reallocateAndMove
  refine .still .cassert fun _ => ?_
  refine .read (lift size_spec) ?_
  refine .read (lift capacity_spec) ?_
  generalize hc : lo + ws.length + hi = cap at *
  have h1 : cap * 2 < w := Nat.lt_of_le_of_lt (Nat.le_mul_of_pos_right _ hz) hcap
  have h2 : n + ws.length < w := Nat.lt_of_le_of_lt (Nat.le_mul_of_pos_right _ hz) hn
  rw [Nat.mod_eq_of_lt h1, Nat.mod_eq_of_lt h2]
  have h3 : (if cap * 2 < n + ws.length then n + ws.length else cap * 2) * z < w := by split <;> assumption
  have h4 : ws.length * z < w := Nat.lt_of_le_of_lt (Nat.mul_le_mul_right z (by omega)) hn
  have h5 : ((if cap * 2 < n + ws.length then n + ws.length else cap * 2) - ws.length) / 2 * z < w :=
    Nat.lt_of_le_of_lt (Nat.mul_le_mul_right z (by omega)) h3
  dsimp only
  have h6 : ((if cap * 2 < n + ws.length then n + ws.length else cap * 2) + w - ws.length) % w = (if cap * 2 < n + ws.length then n + ws.length else cap * 2) - ws.length := by
    generalize hC : (if cap * 2 < n + ws.length then n + ws.length else cap * 2) = C at *
    have : ws.length ≤ C := by rw [← hC]; split <;> omega
    have : C < w := Nat.lt_of_le_of_lt (Nat.le_mul_of_pos_right _ hz) h3
    rw [show C + w - ws.length = (C - ws.length) + w by omega, Nat.add_mod_right, Nat.mod_eq_of_lt (by omega)]
  rw [h6, wslots_eq hz h3, wslots_eq hz h4, wslots_eq hz h5]
  exact .refl

theorem insertAux_same {pos : Loc} {n : Nat} {value : Loc} (hz : 0 < z) (hn : n * z < w) : insertAuxW z w T v pos n value = insertAux T v pos n value := by
  unfold insertAuxW insertAux
  rw [wslots_eq hz hn]

theorem resizeWithValue_same {count : Nat} {value : Loc} (hz : 0 < z) (hcap : (lo + ws.length + hi) * 2 * z < w) (hn : count * 2 * z < w) :
    SameOn (isDeq e v b lo hi ws ∗ F) (resizeWithValueW z w T v count value) (resizeWithValue T v count value) := by
  unfold resizeWithValueW resizeWithValue
  split
  · exact .refl
  refine .read (lift size_spec) ?_
  have hn1 : count * z < w := Nat.lt_of_le_of_lt (Nat.mul_le_mul_right z (by omega)) hn
  have hn0 : count * 2 < w := Nat.lt_of_le_of_lt (Nat.le_mul_of_pos_right _ hz) hn
  split
  · next h =>
    refine .read (lift size_spec) ?_
    refine .read (lift available_spec) ?_
    have ha : ∀ p, insertAuxW z w T v p (count - ws.length) value = insertAux T v p (count - ws.length) value := fun p =>
      insertAux_same hz (Nat.lt_of_le_of_lt (Nat.mul_le_mul_right z (by omega)) hn)
    simp only [ha]
    refine .head ?_
    split
    · rw [Nat.mod_eq_of_lt (by omega)]
      exact realloc_same hz hcap (Nat.lt_of_le_of_lt (Nat.mul_le_mul_right z (by omega)) hn)
    · exact .refl
  · rw [wslots_eq hz hn1]
    exact .refl

theorem resize_same {count : Nat} (hz : 0 < z) (hcap : (lo + ws.length + hi) * 2 * z < w) (hn : count * 2 * z < w) :
    SameOn (isDeq e v b lo hi ws ∗ F) (resizeW z w T v count) (resize T v count) := resizeWithValue_same hz hcap hn

theorem reserve_same {count : Nat} (hz : 0 < z) (hcap : (lo + ws.length + hi) * 2 * z < w) (hn : count * 2 * z < w) :
    SameOn (isDeq e v b lo hi ws ∗ F) (reserveW z w T v count) (reserve T v count) := by
  unfold reserveW reserve
  refine .still .cassert fun _ => ?_
  refine .read (lift capacity_spec) ?_
  split
  · exact resize_same hz hcap hn
  · exact .refl

theorem createFrom_same (e : ElemSpec False (T ty) W) {count : Nat} {values : Loc} (hz : 0 < z) (hn : count * 2 * z < w) :
    SameOn F (createFromW z w T ty values count) (createFrom T ty values count) := by
  unfold createFromW createFrom
  rw [wslots_eq hz (Nat.lt_of_le_of_lt (Nat.mul_le_mul_right z (by omega)) hn)]
  split
  · exact .refl
  · next h =>
    refine SameOn.pre (P' := emp ∗ F) (by rw [emp_sep]; exact ent_refl _) ?_
    refine SameOn.bind (create_spec (e := e) (by simp at h; exact h.1)) fun r => ?_
    rw [sep_assoc]
    refine .pure_left fun _ => ?_
    by_cases hr : r = 0
    · rw [if_pos hr, if_pos hr, if_pos hr]; exact .refl
    · rw [if_neg hr, if_neg hr, if_neg hr]
      exact .head (reserve_same hz (by simp; omega) hn)

theorem insertN_same {pos : Loc} {count : Nat} {value : Loc} (hz : 0 < z) (hcap : (lo + ws.length + hi) * 2 * z < w) (hn : (ws.length + count * 2) * z < w) :
    SameOn (isDeq e v b lo hi ws ∗ F) (insertNW z w T v pos count value) (insertN T v pos count value) := by
  unfold insertNW insertN
  split
  · exact .refl
  refine .still s_isValidPos fun r => ?_
  split
  · exact .refl
  have ha : ∀ p, insertAuxW z w T v p count value = insertAux T v p count value := fun p =>
      insertAux_same hz (Nat.lt_of_le_of_lt (Nat.mul_le_mul_right z (by omega)) hn)
  simp only [ha]
  have hn0 : ws.length + count * 2 < w := Nat.lt_of_le_of_lt (Nat.le_mul_of_pos_right _ hz) hn
  refine .head ?_
  unfold insertRoomW insertRoom
  refine .still s_available fun av => ?_
  split
  · refine .still .ldP fun s => ?_
    refine .still .psub fun diff => ?_
    refine .still s_available fun av => ?_
    rw [Nat.mod_eq_of_lt (by omega)]
    exact .head (realloc_same hz hcap (Nat.lt_of_le_of_lt (Nat.mul_le_mul_right z (by omega)) hn))
  · exact .refl

theorem pushBack_same {value : Loc} (hz : 0 < z) (hcap : (lo + ws.length + hi) * 2 * z < w) (hn : (ws.length + 2) * z < w) :
    SameOn (isDeq e v b lo hi ws ∗ F) (pushBackW z w T v value) (pushBack T v value) := by
  unfold pushBackW pushBack
  split
  · exact .refl
  refine .still .ldP fun f => ?_
  refine .still .ldP fun e => ?_
  refine .head ?_
  split
  · exact realloc_same hz hcap (by rw [Nat.add_comm]; exact hn)
  · exact .refl

theorem pushFront_same {value : Loc} (hz : 0 < z) (hcap : (lo + ws.length + hi) * 2 * z < w) (hn : (ws.length + 2) * z < w) :
    SameOn (isDeq e v b lo hi ws ∗ F) (pushFrontW z w T v value) (pushFront T v value) := by
  unfold pushFrontW pushFront
  split
  · exact .refl
  refine .still .ldP fun f => ?_
  refine .still .ldP fun e => ?_
  refine .head ?_
  split
  · exact realloc_same hz hcap (by rw [Nat.add_comm]; exact hn)
  · exact .refl

end Fits

/-! ## Sizes that do not fit -/
section Wraps
variable {e : ElemSpec True (T ty) W}

/-- a fresh deque after reallocation: `f` is where the (not yet existing) elements are to begin, `N` the number of slots of the new storage -/
def wideDeq (v a f N ty : Nat) : HProp V :=
  blk v 5 ∗ pts (v, 1) (.ptr a 1) ∗ pts (v, 2) (.ptr a (1 + f)) ∗ pts (v, 3) (.ptr a (1 + f)) ∗ pts (v, 4) (.ptr a (1 + N)) ∗ fld v 5 ty ∗ blk a N ∗ raws a 1 N

theorem realloc_wide {k : Nat} (hk : k < w) :
    Triple True (isDeq e v b 0 0 []) (reallocateAndMoveW z w T v k)
      (fun failed => ⌜failed = false⌝ ∗ ∃ₛ a, ⌜a ≠ 0⌝ ∗ wideDeq v a (wslots z w (k / 2)) (wslots z w k) ty) := by
  unfold isDeq
  apply hdr_fact; intro hv
  unfold reallocateAndMoveW
  step
  · simpa using hv
  call size_spec
  intro r
  xsub
  call capacity_spec
  intro r
  xsub
  have hC : (if (0 + ([] : List W).length + 0) * 2 % w < (k + ([] : List W).length) % w then (k + ([] : List W).length) % w else (0 + ([] : List W).length + 0) * 2 % w) = k := by
    simp only [List.length_nil]
    rw [Nat.add_zero k, Nat.mod_eq_of_lt hk]
    simp
    omega
  simp only [hC]
  apply mallocO_spec
  · intro h
    exact absurd trivial h
  intro a ha
  rw [if_neg ha]
  call ldStart
  intro r
  xsub
  call ldFinish
  intro r
  xsub
  apply psub_spec (by omega)
  have hm0 : ∀ d s : Loc, (memcpy d s (1 + 0 + ([] : List W).length - (1 + 0)) : M V Unit) = pure () := by
    intro d s
    unfold memcpy
    rw [if_neg (by simp)]
    rfl
  rw [hm0, pure_bind]
  call ldTy
  intro r
  xsub
  call dbegin_spec
  intro r
  xsub
  call dend_spec
  intro r
  xsub
  call (destroyLoop_spec (e := e) (b := b) (i := 1 + 0) (ws := []) rfl)
  intro _
  call ldSos
  intro r
  xsub
  unfold dhdr
  refine Triple.pre (P' := (buf b 0 ∗ raws b 1 0) ∗ blk a (wslots z w k) ∗ raws a 1 (wslots z w k) ∗
      (blk v 5 ∗ pts (v, 1) (.ptr b 1) ∗ pts (v, 2) (.ptr b (1 + 0)) ∗ pts (v, 3) (.ptr b (1 + 0 + 0)) ∗
        pts (v, 4) (.ptr b (1 + 0 + 0 + 0)) ∗ fld v 5 ty)) ?_ ?_
  · simp only [List.length_nil]
    have : raws (V := V) b 1 0 = emp := rfl
    rw [this]
    cancel
  call (freeStorage_spec (b := b) (cap := 0))
  intro _
  steps
  apply Triple.ret
  refine ent_pure_right rfl ?_
  xexists a
  have h1 : (k + w - ([] : List W).length) % w / 2 = k / 2 := by
    simp only [List.length_nil]
    rw [Nat.sub_zero, Nat.add_mod_right, Nat.mod_eq_of_lt hk]
  have h2 : wslots z w ([] : List W).length = 0 := by simp [wslots]
  simp only [padd, h1, h2]
  unfold wideDeq
  rw [Nat.add_zero]
  cancel

theorem wide_isDeq {a f N : Nat} (ha : a ≠ 0) (h : f ≤ N) : wideDeq v a f N ty ⊢ₛ isDeq e v a f (N - f) [] := by
  obtain ⟨d, rfl⟩ : ∃ d, N = f + d := ⟨N - f, by omega⟩
  unfold wideDeq isDeq dhdr
  rw [buf_ne ha, raws_append, Nat.add_sub_cancel_left]
  simp only [List.length_nil, live_nil, Nat.add_zero]
  rw [Nat.add_assoc 1 f d]
  cancel

theorem deq_out (hp : e.Plain) (hb : b ≠ 0) (hF : Closed F) {i : Nat} (hi' : lo + ws.length + hi < i) {h : Heap V} (hh : (isDeq e v b lo hi ws ∗ F) h) : h (b, i) = none := by
  have hne := deq_vb hb hh
  have hn : NotIn (b, i) (isDeq e v b lo hi ws) := deq_notIn hp (fun h => hne h.symm) (Or.inr hi') (by simp only; omega)
  have he : isDeq e v b lo hi ws = (blk b (lo + ws.length + hi) ∗ (blk v 5 ∗ pts (v, 1) (.ptr b 1) ∗ pts (v, 2) (.ptr b (1 + lo)) ∗ pts (v, 3) (.ptr b (1 + lo + ws.length)) ∗
      pts (v, 4) (.ptr b (1 + lo + ws.length + hi)) ∗ fld v 5 ty ∗ raws b 1 lo ∗ live e b (1 + lo) ws ∗ raws b (1 + lo + ws.length) hi)) := by
    unfold isDeq dhdr; rw [buf_ne hb]
    funext h
    exact propext ⟨(show _ ⊢ₛ _ by cancel) h, (show _ ⊢ₛ _ by cancel) h⟩
  rw [he] at hh hn
  exact hF.notIn hh hn

theorem fill_bad' {t : Ty V} {s : Mem V} {b i j n : Nat} {value : Loc} (hj : j < n) (h : s.cells (b, i + j) = none) :
    fill (plainOps t) (b, i) n value s = some (.error .ub) := by
  induction n generalizing i j s with
  | zero => omega
  | succ n ih =>
    rw [fill]
    have key : put (plainOps t) (b, i) value s = some (.error .ub) ∨
        (s.cells (b, i) ≠ none ∧ ∃ s', put (plainOps t) (b, i) value s = some (.ok ((), s')) ∧ ∀ l', s.cells l' = none → s'.cells l' = none) := by
      unfold put
      split
      · exact plainCopy_cases s (b, i) value
      · exact plainCreate_cases s (b, i)
    rcases key with h1 | ⟨h0, s', h1, h2⟩
    · exact bind_error h1
    · rw [bind_ok h1]
      cases j with
      | zero => exact absurd h h0
      | succ j =>
        refine ih (j := j) (by omega) (h2 _ ?_)
        rw [show i + 1 + j = i + (j + 1) by omega]
        exact h

/-- inserting more elements than the storage of an empty deque has slots -/
theorem insertAux_wide_bad {t : Ty V} (hT : T ty = plainOps t) (hp : e.Plain) (hb : b ≠ 0) (hF : Closed F) {n : Nat} {value : Loc} (hn : lo + hi < n) :
    Bad (isDeq e v b lo hi [] ∗ F) (insertAuxW z w T v (b, 1 + lo) n value) := by
  refine Bad.fact (fun _ => deq_ne) fun hv => ?_
  unfold insertAuxW
  have hca : (cassert (v != 0) : M V Unit) = pure () := by unfold cassert; rw [if_pos (by simpa using hv)]
  rw [hca, pure_bind]
  refine lift_bad ldTy ?_
  refine lift_bad availableEnd_spec ?_
  rw [if_neg (by omega)]
  refine lift_bad availableStart_spec ?_
  rw [if_neg (by omega)]
  have hps : (psub (b, 1 + lo) (b, 1 + lo) : M V Nat) = pure 0 := by
    unfold psub
    rw [if_pos ⟨rfl, Nat.le_refl _⟩]
    simp
  have hm0 : ∀ d s : Loc, (memmove d s 0 : M V Unit) = pure () := fun _ _ => rfl
  refine lift_bad ldStart ?_
  rw [hps, pure_bind]
  refine lift_bad ldFinish ?_
  simp only [List.length_nil, Nat.add_zero]
  rw [hps, pure_bind]
  refine lift_bad ldSos ?_
  refine lift_bad ldStart ?_
  rw [hm0, pure_bind]
  refine lift_bad ldSos ?_
  -- the state after `start = start_of_storage`
  let H : HProp V := blk b (lo + hi) ∗ (blk v 5 ∗ pts (v, 1) (.ptr b 1) ∗ pts (v, 2) (.ptr b 1) ∗ pts (v, 3) (.ptr b (1 + lo)) ∗ pts (v, 4) (.ptr b (1 + lo + hi)) ∗ fld v 5 ty ∗
    raws b 1 lo ∗ raws b (1 + lo) hi)
  have hst : Triple True (isDeq e v b lo hi []) (stP (v, 2) (b, 1)) (fun _ => H) := by
    unfold isDeq dhdr
    rw [← bind_pure (stP (v, 2) (b, 1)), buf_ne hb]
    steps
    apply Triple.ret
    show _ ⊢ₛ blk b (lo + hi) ∗ _
    simp only [List.length_nil, live_nil, Nat.add_zero]
    cancel
  have hld : Triple True H (ldP (v, 2)) (fun r => ⌜r = (b, 1)⌝ ∗ H) := by
    show Triple True (blk b (lo + hi) ∗ _) _ _
    rw [← bind_pure (ldP (v, 2))]
    steps
    apply Triple.ret
    refine ent_pure_right rfl ?_
    show _ ⊢ₛ blk b (lo + hi) ∗ _
    cancel
  refine Bad.fact (fun h hh => deq_vb hb hh) fun hvb => ?_
  refine Bad.bind hst fun _ => ?_
  refine Bad.bind hld fun r => ?_
  rw [sep_assoc]
  refine Bad.pure_left ?_
  rintro rfl
  rw [hm0, pure_bind]
  refine Bad.bind hld fun r => ?_
  rw [sep_assoc]
  refine Bad.pure_left ?_
  rintro rfl
  refine Bad.head ?_
  intro s _ hs
  rw [hT]
  refine fill_bad' (j := lo + hi) hn ?_
  have h1 : ∀ i, (b, 1 + (lo + hi)) ≠ (v, i) := fun i h => hvb (congrArg Prod.fst h).symm
  refine hF.notIn hs (.sep (.pts (by intro h; have := congrArg Prod.snd h; simp only at this; omega)) (.sep (.pts (h1 _)) (.sep (.pts (h1 _)) (.sep (.pts (h1 _)) (.sep (.pts (h1 _))
    (.sep (.pts (h1 _)) (.sep (.pts (h1 _)) (.sep (.raws (Or.inr (Or.inr (by simp only; omega)))) (.raws (Or.inr (Or.inr (by simp only; omega)))))))))))) 

theorem wide_small {count : Nat} (hc : count < w) (hz : 0 < z) (hbig : w ≤ count * 2 * z) : wslots z w (count * 2 % w) < count := by
  by_cases h2 : count * 2 < w
  · rw [Nat.mod_eq_of_lt h2]
    unfold wslots
    rw [Nat.div_lt_iff_lt_mul hz]
    by_cases h1 : w ≤ count * z
    · exact Nat.lt_of_lt_of_le (Nat.mod_lt _ (by omega)) h1
    · have h3 : count * 2 * z = count * z + count * z := by rw [Nat.mul_assoc, Nat.two_mul, Nat.mul_add]
      rw [h3] at hbig ⊢
      generalize count * z = q at *
      rw [show q + q = (q + q - w) + w by omega, Nat.add_mod_right, Nat.mod_eq_of_lt (by omega)]
      omega
  · have h1 : count * 2 % w = count * 2 - w := by
      rw [show count * 2 = (count * 2 - w) + w by omega, Nat.add_mod_right, Nat.mod_eq_of_lt (by omega)]
      omega
    rw [h1]
    refine Nat.lt_of_le_of_lt (m := count * 2 - w) ?_ (by omega)
    unfold wslots
    exact Nat.le_trans (Nat.div_le_div_right (Nat.mod_le _ _)) (by rw [Nat.mul_div_cancel _ hz]; exact Nat.le_refl _)

theorem resize_wide_bad {t : Ty V} (hT : T ty = plainOps t) (hp : e.Plain) (hF : Closed F) {count : Nat} {value : Loc} (hz : 0 < z)
    (hc : count < w) (hbig : w ≤ count * 2 * z) : Bad (isDeq e v b 0 0 [] ∗ F) (resizeWithValueW z w T v count value) := by
  refine Bad.fact (fun _ => deq_ne) fun hv => ?_
  have hcount : 0 < count := by
    rcases Nat.eq_zero_or_pos count with rfl | h
    · simp at hbig; omega
    · exact h
  unfold resizeWithValueW
  rw [if_neg hv]
  refine lift_bad size_spec ?_
  rw [if_pos (by simpa using hcount)]
  refine lift_bad size_spec ?_
  refine lift_bad available_spec ?_
  simp only [List.length_nil, Nat.sub_zero]
  rw [if_pos (by omega)]
  have hlt := wide_small hc hz hbig
  refine Bad.bind (realloc_wide (Nat.mod_lt _ (by omega))) fun failed => ?_
  rw [sep_assoc]
  refine Bad.pure_left ?_
  rintro rfl
  refine Bad.ex fun a => ?_
  rw [sep_assoc]
  refine Bad.pure_left fun ha => ?_
  simp only [Bool.false_eq_true, if_false]
  generalize wslots z w (count * 2 % w) = N at *
  generalize wslots z w (count * 2 % w / 2) = f at *
  by_cases hf : f ≤ N
  · refine Bad.pre (sep_mono (wide_isDeq (e := e) ha hf) (ent_refl _)) ?_
    refine lift_bad dend_spec ?_
    simp only [List.length_nil, Nat.add_zero]
    exact Bad.head (insertAux_wide_bad hT hp ha hF (by omega))
  · have hca : (cassert (v != 0) : M V Unit) = pure () := by unfold cassert; rw [if_pos (by simpa using hv)]
    unfold dend end_
    rw [hca, pure_bind, pure_bind]
    have hl3 : Triple (V := V) True (wideDeq v a f N ty) (ldP (v, 3)) (fun r => ⌜r = (a, 1 + f)⌝ ∗ wideDeq v a f N ty) := by
      unfold wideDeq
      rw [← bind_pure (ldP (v, 3))]
      steps
      apply Triple.ret
      refine ent_pure_right rfl ?_
      cancel
    have hl4 : Triple (V := V) True (wideDeq v a f N ty) (ldP (v, 4)) (fun r => ⌜r = (a, 1 + N)⌝ ∗ wideDeq v a f N ty) := by
      unfold wideDeq
      rw [← bind_pure (ldP (v, 4))]
      steps
      apply Triple.ret
      refine ent_pure_right rfl ?_
      cancel
    have hl5 : Triple (V := V) True (wideDeq v a f N ty) (ldN (v, 5)) (fun r => ⌜r = ty⌝ ∗ wideDeq v a f N ty) := by
      unfold wideDeq
      rw [← bind_pure (ldN (v, 5))]
      steps
      apply Triple.ret
      refine ent_pure_right rfl ?_
      cancel
    refine Bad.bind hl3 fun r => ?_
    rw [sep_assoc]
    refine Bad.pure_left ?_
    rintro rfl
    refine Bad.head ?_
    unfold insertAuxW availableEnd
    rw [hca, pure_bind]
    refine Bad.bind hl5 fun r => ?_
    rw [sep_assoc]
    refine Bad.pure_left ?_
    rintro rfl
    rw [pure_bind]
    simp only [bind_assoc]
    refine Bad.bind hl4 fun r => ?_
    rw [sep_assoc]
    refine Bad.pure_left ?_
    rintro rfl
    refine Bad.bind hl3 fun r => ?_
    rw [sep_assoc]
    refine Bad.pure_left ?_
    rintro rfl
    refine Bad.head ?_
    intro s _ _
    unfold psub
    rw [if_neg (by simp; omega)]
    rfl

theorem createFrom_wide_bad {t : Ty V} (hT : T ty = plainOps t) (e : ElemSpec True (T ty) W) (hp : e.Plain) (hty : ty ≠ 0) (hF : Closed F) {count : Nat} {values : Loc}
    (hv0 : values.1 ≠ 0) (hz : 0 < z) (hw : 0 < w) (hc : count < w) (hbig : w ≤ count * 2 * z) : Bad F (createFromW z w T ty values count) := by
  unfold createFromW
  have hc0 : count ≠ 0 := by rintro rfl; simp at hbig; omega
  rw [if_neg (by simp [hv0, hc0, hty])]
  refine Bad.pre (P' := emp ∗ F) (by rw [emp_sep]; exact ent_refl _) ?_
  refine Bad.bind (create_spec (e := e) hty) fun v => ?_
  rw [sep_assoc]
  refine Bad.pure_left fun hv => ?_
  have hv : v ≠ 0 := fun h => hv h trivial
  rw [if_neg hv, if_neg hv]
  refine Bad.head ?_
  unfold reserveW
  have hca : (cassert (v != 0) : M V Unit) = pure () := by unfold cassert; rw [if_pos (by simpa using hv)]
  rw [hca, pure_bind]
  refine lift_bad capacity_spec ?_
  rw [if_pos (by simp; omega)]
  exact resize_wide_bad hT hp hF hz hc hbig

end Wraps

end CC.Deq
