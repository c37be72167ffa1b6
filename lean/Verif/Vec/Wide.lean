import Verif.Core.Same
import Verif.Vec.Starve
/-!
# c_vector.c with `size_t` arithmetic

The other files count elements with unbounded numbers.  The definitions here are those of `Vec/Model` with the computations of the C code done modulo `w`, the
number of values of `size_t`, for elements of `z` bytes.  Block sizes are rounded down to whole elements (`wslots`).  Only the functions that compute a size from
their arguments or from the capacity are repeated; offsets inside an existing block cannot wrap.
-/
namespace CC.Vec
open CC CC.Tac
variable {V W α β : Type}

section Model
variable (z w : Nat) (T : Nat → Ops V)

/-- `__reallocate_and_move`, c_vector.c:488-509, with `cap * 2`, `n + size` and `cap * value_size` computed in `size_t` -/
def reallocateAndMoveW (v : Addr) (n : Nat) : M V Bool := do
  cassert (v != 0)
  let sz ← size v
  let cap ← capacity v
  let cap := if cap * 2 % w < (n + sz) % w then (n + sz) % w else cap * 2 % w
  let start ← mallocO (wslots z w cap)
  if start = 0 then pure true else do
  let s0 ← ldP (v, 1)
  let f0 ← ldP (v, 2)
  let len ← psub f0 s0
  memcpy (start, 1) s0 len
  let ty ← ldN (v, 4)
  let b ← begin_ v
  let e ← end_ v
  destroyLoop (T ty) b e
  let s1 ← ldP (v, 1)
  freeStorage s1
  stP (v, 1) (start, 1)
  stP (v, 2) (padd (start, 1) (wslots z w sz))
  stP (v, 3) (padd (start, 1) (wslots z w cap))
  pure false

/-- `c_vector_resize_with_value`, c_vector.c:816-836, in `size_t` arithmetic -/
def resizeWithValueW (v : Addr) (count : Nat) (value : Loc) : M V Unit :=
  if v = 0 then pure () else do
  let sz ← size v
  if sz < count then do
    let sz ← size v
    let count := count - sz
    let av ← available v
    let failed ← (if av < count then reallocateAndMoveW z w T v count else pure false)
    if failed then pure () else do
    let e ← end_ v
    let ty ← ldN (v, 4)
    fill (T ty) e count value
    let f ← ldP (v, 2)
    stP (v, 2) (padd f (wslots z w count))
  else do
    let s ← ldP (v, 1)
    let pos := padd s (wslots z w count)
    let ty ← ldN (v, 4)
    let e ← end_ v
    destroyLoop (T ty) pos e
    stP (v, 2) pos

/-- `c_vector_resize`, c_vector.c:811-814, in `size_t` arithmetic -/
def resizeW (v : Addr) (count : Nat) : M V Unit := resizeWithValueW z w T v count (0, 0)

/-- `c_vector_reserve`, c_vector.c:664-668, in `size_t` arithmetic -/
def reserveW (v : Addr) (newCap : Nat) : M V Unit :=
  if v = 0 then pure () else do
  let cap ← capacity v
  if newCap ≤ cap then pure () else
  resizeW z w T v newCap

/-- `c_vector_create_from_array`, c_vector.c:530-541, in `size_t` arithmetic -/
def createFromArrayW (ty : Nat) (values : Loc) (length : Nat) : M V Addr :=
  if values.1 = 0 ∨ length = 0 then pure 0 else do
  let v ← create ty
  if v = 0 then pure 0 else do
  reserveW z w T v length
  let s ← ldP (v, 1)
  memcpy s values (wslots z w length)
  pure v

/-- `c_vector_create_n`, c_vector.c:543-552, in `size_t` arithmetic -/
def createNW (ty : Nat) (count : Nat) (value : Loc) : M V Addr :=
  if value.1 = 0 ∨ count = 0 then pure 0 else do
  let v ← create ty
  if v = 0 then pure 0 else do
  resizeWithValueW z w T v count value
  pure v

/-- `c_vector_insert_n`, c_vector.c:714-734 (making room), in `size_t` arithmetic -/
def insertRoomW (v : Addr) (pos : Loc) (count : Nat) : M V (Option Loc) := do
  let av ← available v
  if av < count then do
    let s ← ldP (v, 1)
    let diff ← psub pos s
    let av ← available v
    let failed ← reallocateAndMoveW z w T v (count - av)
    if failed then pure none else do
    let s ← ldP (v, 1)
    pure (some (padd s diff))
  else pure (some pos)

/-- `c_vector_insert_n`, c_vector.c:714-734, in `size_t` arithmetic -/
def insertNW (v : Addr) (pos : Loc) (count : Nat) (value : Loc) : M V Loc :=
  if v = 0 ∨ value.1 = 0 then pure pos else do
  let ok ← isValidPos v pos
  if !ok then vend v else do
  let r ← insertRoomW z w T v pos count
  match r with
  | none => vend v
  | some pos => do
    let f ← ldP (v, 2)
    let n ← psub f pos
    memmove (padd pos (wslots z w count)) pos n
    let ty ← ldN (v, 4)
    fill (T ty) pos count value
    let f ← ldP (v, 2)
    stP (v, 2) (padd f (wslots z w count))
    pure pos

/-- `c_vector_push_back`, c_vector.c:790-801, in `size_t` arithmetic -/
def pushBackW (v : Addr) (value : Loc) : M V Unit :=
  if v = 0 ∨ value.1 = 0 then pure () else do
  let f ← ldP (v, 2)
  let e ← ldP (v, 3)
  let failed ← (if f = e then reallocateAndMoveW z w T v 1 else pure false)
  if failed then pure () else do
  let ty ← ldN (v, 4)
  let f ← ldP (v, 2)
  (T ty).copy f value
  let f ← ldP (v, 2)
  stP (v, 2) (padd f 1)

end Model

variable {T : Nat → Ops V} {ty : Nat} {v b cap z w : Nat} {ws : List W} {F : HProp V}

/-! ## Sizes that fit: nothing changes -/
section Fits
variable {e : ElemSpec False (T ty) W}

theorem s_begin {v : Nat} : Still (begin_ v : M V _) := by unfold begin_; still
theorem s_end {v : Nat} : Still (end_ v : M V _) := by unfold end_; still
theorem s_available {v : Nat} : Still (available v : M V _) := by unfold available; still
theorem s_isValidPos {v : Nat} {p : Loc} : Still (isValidPos v p : M V _) := by unfold isValidPos; still

theorem realloc_same {n : Nat} (hz : 0 < z) (hcap : cap * 2 * z < w) (hn : (n + ws.length) * z < w) :
    SameOn (isVec e v b cap ws ∗ F) (reallocateAndMoveW z w T v n) (reallocateAndMove T v n) := by
  unfold reallocateAndMoveW reallocateAndMove
  refine .still .cassert fun _ => ?_
  refine .read vsize_spec ?_
  refine .read vcapacity_spec ?_
  have h1 : cap * 2 < w := Nat.lt_of_le_of_lt (Nat.le_mul_of_pos_right _ hz) hcap
  have h2 : n + ws.length < w := Nat.lt_of_le_of_lt (Nat.le_mul_of_pos_right _ hz) hn
  rw [Nat.mod_eq_of_lt h1, Nat.mod_eq_of_lt h2]
  have h3 : (if cap * 2 < n + ws.length then n + ws.length else cap * 2) * z < w := by split <;> assumption
  have h4 : ws.length * z < w := Nat.lt_of_le_of_lt (Nat.mul_le_mul_right z (by omega)) hn
  dsimp only
  rw [wslots_eq hz h3, wslots_eq hz h4]
  exact .refl

theorem resizeWithValue_same {count : Nat} {value : Loc} (hz : 0 < z) (hcap : cap * 2 * z < w) (hn : count * z < w) :
    SameOn (isVec e v b cap ws ∗ F) (resizeWithValueW z w T v count value) (resizeWithValue T v count value) := by
  unfold resizeWithValueW resizeWithValue
  split
  · exact .refl
  refine .read vsize_spec ?_
  split
  · next h =>
    refine .read vsize_spec ?_
    refine .read vavailable_spec ?_
    rw [wslots_eq hz (Nat.lt_of_le_of_lt (Nat.mul_le_mul_right z (Nat.sub_le count ws.length)) hn)]
    refine .head ?_
    split
    · exact realloc_same hz hcap (by rw [Nat.sub_add_cancel (by omega)]; exact hn)
    · exact .refl
  · rw [wslots_eq hz hn]
    exact .refl

theorem resize_same {count : Nat} (hz : 0 < z) (hcap : cap * 2 * z < w) (hn : count * z < w) :
    SameOn (isVec e v b cap ws ∗ F) (resizeW z w T v count) (resize T v count) := resizeWithValue_same hz hcap hn

theorem reserve_same {count : Nat} (hz : 0 < z) (hcap : cap * 2 * z < w) (hn : count * z < w) :
    SameOn (isVec e v b cap ws ∗ F) (reserveW z w T v count) (reserve T v count) := by
  unfold reserveW reserve
  split
  · exact .refl
  refine .read vcapacity_spec ?_
  split
  · exact .refl
  · exact resize_same hz hcap hn

theorem create_same (e : ElemSpec False (T ty) W) {k k' : Addr → M V α} (h0 : k 0 = k' 0) (hk : ∀ v, v ≠ 0 → SameOn (isVec e v 0 0 [] ∗ F) (k v) (k' v)) :
    SameOn F (create ty >>= k) (create ty >>= k') := by
  by_cases hty : ty = 0
  · unfold create
    rw [if_pos hty, pure_bind, pure_bind]
    exact .of_eq h0
  have h : Triple False emp (create (V := V) ty) (fun r => if r = 0 then emp else isVec e r 0 0 []) := by
    rw [← bind_pure (create ty)]
    refine create_spec (e := e) hty (fun _ => ?_) fun v hv => ?_
    · apply Triple.ret; rw [if_pos rfl]; exact ent_refl _
    · apply Triple.ret; rw [if_neg hv, sep_emp]; exact ent_refl _
  refine SameOn.pre (P' := emp ∗ F) (by rw [emp_sep]; exact ent_refl _) ?_
  refine SameOn.bind h fun r => ?_
  by_cases hr : r = 0
  · subst hr; exact .of_eq h0
  · rw [if_neg hr]; exact hk r hr

theorem createN_same (e : ElemSpec False (T ty) W) {count : Nat} {value : Loc} (hz : 0 < z) (hn : count * z < w) :
    SameOn F (createNW z w T ty count value) (createN T ty count value) := by
  unfold createNW createN
  split
  · exact .refl
  · refine create_same e (by simp) fun v hv => ?_
    rw [if_neg hv, if_neg hv]
    exact .head (resizeWithValue_same hz (by omega) hn)

theorem createFromArray_same (e : ElemSpec False (T ty) W) {count : Nat} {values : Loc} (hz : 0 < z) (hn : count * z < w) :
    SameOn F (createFromArrayW z w T ty values count) (createFromArray T ty values count) := by
  unfold createFromArrayW createFromArray
  rw [wslots_eq hz hn]
  split
  · exact .refl
  · refine create_same e (by simp) fun v hv => ?_
    rw [if_neg hv, if_neg hv]
    exact .head (reserve_same hz (by omega) hn)

theorem insertN_same {pos : Loc} {count : Nat} {value : Loc} (hz : 0 < z) (hcap : cap * 2 * z < w) (hn : (ws.length + count) * z < w) :
    SameOn (isVec e v b cap ws ∗ F) (insertNW z w T v pos count value) (insertN T v pos count value) := by
  unfold insertNW insertN
  split
  · exact .refl
  refine .still s_isValidPos fun r => ?_
  split
  · exact .refl
  rw [wslots_eq hz (Nat.lt_of_le_of_lt (Nat.mul_le_mul_right z (by omega)) hn)]
  refine .head ?_
  unfold insertRoomW insertRoom
  refine .still s_available fun av => ?_
  split
  · refine .still .ldP fun s => ?_
    refine .still .psub fun diff => ?_
    refine .still s_available fun av => ?_
    exact .head (realloc_same hz hcap (Nat.lt_of_le_of_lt (Nat.mul_le_mul_right z (by omega)) hn))
  · exact .refl

theorem pushBack_same {value : Loc} (hz : 0 < z) (hcap : cap * 2 * z < w) (hn : (ws.length + 1) * z < w) :
    SameOn (isVec e v b cap ws ∗ F) (pushBackW z w T v value) (pushBack T v value) := by
  unfold pushBackW pushBack
  split
  · exact .refl
  refine .still .ldP fun f => ?_
  refine .still .ldP fun e => ?_
  refine .head ?_
  split
  · exact realloc_same hz hcap (by rw [Nat.add_comm]; exact hn)
  · exact .refl

end Fits

/-! ## Sizes that do not fit -/
section Wraps
variable {e : ElemSpec True (T ty) W}

/-- the capacity the reallocation asks for -/
def capW (w cap n sz : Nat) : Nat := if cap * 2 % w < (n + sz) % w then (n + sz) % w else cap * 2 % w

theorem realloc_wide {k : Nat} (hz : 0 < z) (hlen : ws.length * z < w) (hp : e.Plain ∨ ws = []) (hfit : ws.length ≤ wslots z w (capW w cap k ws.length)) :
    Triple True (isVec e v b cap ws) (reallocateAndMoveW z w T v k)
      (fun failed => ⌜failed = false⌝ ∗ ∃ₛ b', ⌜b' ≠ 0⌝ ∗ isVec e v b' (wslots z w (capW w cap k ws.length)) ws) := by
  unfold isVec
  apply hdr_fact; intro hv
  xintro hc
  unfold reallocateAndMoveW
  step
  · simpa using hv
  call size_spec
  intro r
  xsub
  call capacity_spec
  intro r
  xsub
  apply mallocO_spec
  · intro h
    exact absurd trivial h
  intro a ha
  rw [if_neg ha]
  call ldStart
  intro r
  xsub
  call ldFinish
  intro r
  xsub
  apply psub_spec (by omega)
  rw [show 1 + ws.length - 1 = ws.length by omega]
  have hcap : wslots z w (capW w cap k ws.length) = ws.length + (wslots z w (capW w cap k ws.length) - ws.length) := by omega
  rw [wslots_eq hz hlen]
  generalize hN : wslots z w (capW w cap k ws.length) = N at *
  have hN' : wslots z w (if cap * 2 % w < (k + ws.length) % w then (k + ws.length) % w else cap * 2 % w) = N := hN
  rw [hN', hcap, raws_append]
  call (memcpy_plain (e := e) (b := b) (i := 1) (c := a) (j := 1) (n := ws.length) (ws := ws) rfl hp)
  intro _
  call ldTy
  intro r
  xsub
  call begin_spec
  intro r
  xsub
  call end_spec
  intro r
  xsub
  call (destroyLoop_spec (e := e) (b := b) (i := 1) (ws := ws) rfl)
  intro _
  call ldStart
  intro r
  xsub
  unfold vhdr
  refine Triple.pre (P' := (buf b cap ∗ raws b 1 cap) ∗ live e a 1 ws ∗ raws a (1 + ws.length) (N - ws.length) ∗ blk a N ∗
      (blk v 4 ∗ pts (v, 1) (.ptr b 1) ∗ pts (v, 2) (.ptr b (1 + ws.length)) ∗ pts (v, 3) (.ptr b (1 + cap)) ∗ fld v 4 ty)) ?_ ?_
  · have : raws (V := V) b 1 cap = (raws b 1 ws.length ∗ raws b (1 + ws.length) (cap - ws.length)) := by
      rw [← raws_append]; congr 1; omega
    rw [this, ← hcap]
    cancel
  call (freeStorage_spec (b := b) (cap := cap))
  intro _
  steps
  apply Triple.ret
  rw [← hcap]
  refine ent_pure_right rfl ?_
  xexists a
  rw [buf_ne ha]
  simp only [padd]
  cancel

theorem vec_out (hp : e.Plain) (hb : b ≠ 0) (hF : Closed F) {i : Nat} (hi : cap < i) {h : Heap V} (hh : (isVec e v b cap ws ∗ F) h) : h (b, i) = none := by
  have hne := vec_ne hb hh
  have hle := vec_cap hh
  have hn : NotIn (b, i) (isVec e v b cap ws) := vec_notIn hp hb hne hle rfl hi
  have he : isVec e v b cap ws ⊢ₛ blk b cap ∗ (blk v 4 ∗ pts (v, 1) (.ptr b 1) ∗ pts (v, 2) (.ptr b (1 + ws.length)) ∗ pts (v, 3) (.ptr b (1 + cap)) ∗ fld v 4 ty ∗
      ⌜ws.length ≤ cap⌝ ∗ live e b 1 ws ∗ raws b (1 + ws.length) (cap - ws.length)) := by
    unfold isVec vhdr; rw [buf_ne hb]; xintro h; cancel
  have he' : (blk b cap ∗ (blk v 4 ∗ pts (v, 1) (.ptr b 1) ∗ pts (v, 2) (.ptr b (1 + ws.length)) ∗ pts (v, 3) (.ptr b (1 + cap)) ∗ fld v 4 ty ∗
      ⌜ws.length ≤ cap⌝ ∗ live e b 1 ws ∗ raws b (1 + ws.length) (cap - ws.length))) ⊢ₛ isVec e v b cap ws := by
    unfold isVec vhdr; rw [buf_ne hb]; xintro h; cancel
  exact hF.notIn (sep_mono he (ent_refl _) _ hh) fun h' h'' => hn _ (he' _ h'')

/-- the bits of the elements do not fit into the new block -/
theorem realloc_wide_bad {k : Nat} (hp : e.Plain) (hF : Closed F) (hfit : wslots z w (capW w cap k ws.length) < ws.length) :
    Bad (isVec e v b cap ws ∗ F) (reallocateAndMoveW z w T v k) := by
  refine Bad.fact (fun _ => vec_ok) fun ⟨hv, hle⟩ => ?_
  refine Bad.fact (p := b ≠ 0) (fun h hh => ?_) fun hb => ?_
  · rintro rfl
    have := buf_fact (e := e) hh
    omega
  unfold reallocateAndMoveW
  have hca : (cassert (v != 0) : M V Unit) = pure () := by unfold cassert; rw [if_pos (by simpa using hv)]
  rw [hca, pure_bind]
  refine Bad.bind vsize_spec fun r => ?_
  rw [sep_assoc]
  refine Bad.pure_left ?_
  rintro rfl
  refine Bad.bind vcapacity_spec fun r => ?_
  rw [sep_assoc]
  refine Bad.pure_left fun hr => ?_
  rw [hr]
  clear hr r
  generalize hN : wslots z w (capW w cap k ws.length) = N at *
  have hN' : wslots z w (if cap * 2 % w < (k + ws.length) % w then (k + ws.length) % w else cap * 2 % w) = N := hN
  dsimp only
  rw [hN']
  have hm : Triple True emp (mallocO (V := V) N) (fun a => ⌜a ≠ 0⌝ ∗ blk a N ∗ raws a 1 N) := by
    rw [← bind_pure (mallocO N)]
    refine mallocO_spec (fun h => absurd trivial h) fun a ha => Triple.ret ?_
    rw [sep_emp]
    exact ent_pure_right ha (ent_refl _)
  refine Bad.pre (P' := emp ∗ isVec e v b cap ws ∗ F) (by cancel) ?_
  refine Bad.bind hm fun a => ?_
  rw [sep_assoc]
  refine Bad.pure_left fun ha => ?_
  rw [if_neg ha]
  refine Bad.pre (P' := isVec e v b cap ws ∗ (blk a N ∗ raws a 1 N) ∗ F) (by cancel) ?_
  refine Bad.bind vstart_spec fun r => ?_
  rw [sep_assoc]
  refine Bad.pure_left ?_
  rintro rfl
  have hfin : Triple True (isVec e v b cap ws) (ldP (v, 2)) (fun r => ⌜r = (b, 1 + ws.length)⌝ ∗ isVec e v b cap ws) := by
    unfold isVec; xintro h; call ldFinish; intro r; xsub; cancel
  refine Bad.bind hfin fun r => ?_
  rw [sep_assoc]
  refine Bad.pure_left ?_
  rintro rfl
  have hps : (psub (b, 1 + ws.length) (b, 1) : M V Nat) = pure ws.length := by
    unfold psub
    rw [if_pos ⟨rfl, by simp⟩]
    congr 1
    simp
  rw [hps, pure_bind]
  refine Bad.head ?_
  intro s _ hs
  have hav : a ≠ v := by
    unfold isVec vhdr at hs
    have := loc_ne_of (l₁ := (a, 0)) (l₂ := (v, 0)) hs (by xintro _; cancel)
    intro h; exact this (by rw [h])
  have hab : a ≠ b := by
    unfold isVec vhdr at hs
    rw [buf_ne hb] at hs
    have := loc_ne_of (l₁ := (a, 0)) (l₂ := (b, 0)) hs (by xintro _; cancel)
    intro h; exact this (by rw [h])
  have hs' : ((blk a N ∗ (raws a 1 N ∗ isVec e v b cap ws)) ∗ F) s.cells := (show _ ⊢ₛ _ by cancel) _ hs
  have hout := hF.notIn (i := 1 + N) hs' (.sep (.pts (by intro h; have := congrArg Prod.snd h; simp only at this; omega)) (.sep (.raws (Or.inr (Or.inr (by simp)))) (vec_notIn' hp hb hab hav)))
  exact memcpy_bad (by omega) hout

theorem fill_bad' {t : Ty V} {s : Mem V} {b i j n : Nat} {value : Loc} (hj : j < n) (h : s.cells (b, i + j) = none) :
    fill (plainOps t) (b, i) n value s = some (.error .ub) := by
  induction n generalizing i j s with
  | zero => omega
  | succ n ih =>
    rw [fill]
    have key : put (plainOps t) (b, i) value s = some (.error .ub) ∨
        (s.cells (b, i) ≠ none ∧ ∃ s', put (plainOps t) (b, i) value s = some (.ok ((), s')) ∧ ∀ l', s.cells l' = none → s'.cells l' = none) := by
      unfold put
      split
      · exact plainCopy_cases s (b, i) value
      · exact plainCreate_cases s (b, i)
    rcases key with h1 | ⟨h0, s', h1, h2⟩
    · exact bind_error h1
    · rw [bind_ok h1]
      cases j with
      | zero => exact absurd h h0
      | succ j =>
        refine ih (j := j) (by omega) (h2 _ ?_)
        rw [show i + 1 + j = i + (j + 1) by omega]
        exact h

theorem resize_wide_bad {t : Ty V} (hT : T ty = plainOps t) (hp : e.Plain) (hF : Closed F) {count : Nat} {value : Loc} (hz : 0 < z) (hcw : cap * z < w)
    (hc : count < w) (h2 : cap * 2 ≤ count) (hbig : w ≤ count * z) :
    Bad (isVec e v b cap ws ∗ F) (resizeWithValueW z w T v count value) := by
  refine Bad.fact (fun _ => vec_ok) fun ⟨hv, hle⟩ => ?_
  have hcount : 0 < count := by
    rcases Nat.eq_zero_or_pos count with rfl | h
    · simp at hbig; omega
    · exact h
  unfold resizeWithValueW
  rw [if_neg hv]
  refine Bad.bind vsize_spec fun r => ?_
  rw [sep_assoc]
  refine Bad.pure_left ?_
  rintro rfl
  rw [if_pos (by omega)]
  refine Bad.bind vsize_spec fun r => ?_
  rw [sep_assoc]
  refine Bad.pure_left ?_
  rintro rfl
  refine Bad.bind vavailable_spec fun r => ?_
  rw [sep_assoc]
  refine Bad.pure_left ?_
  rintro rfl
  rw [if_pos (by omega)]
  have hN : capW w cap (count - ws.length) ws.length = count := by
    unfold capW
    rw [Nat.sub_add_cancel (by omega), Nat.mod_eq_of_lt hc, Nat.mod_eq_of_lt (by omega)]
    split <;> omega
  have hlt : wslots z w count < count := wslots_lt (by omega) hbig
  have hlen : ws.length * z < w := Nat.lt_of_le_of_lt (Nat.mul_le_mul_right z hle) hcw
  by_cases hfit : wslots z w count < ws.length
  · exact Bad.head (realloc_wide_bad hp hF (by rw [hN]; exact hfit))
  have hre := realloc_wide (v := v) (b := b) (cap := cap) (k := count - ws.length) hz hlen (Or.inl hp) (by rw [hN]; omega)
  rw [hN] at hre
  generalize wslots z w count = N at *
  refine Bad.bind hre fun failed => ?_
  rw [sep_assoc]
  refine Bad.pure_left ?_
  rintro rfl
  refine Bad.ex fun b' => ?_
  rw [sep_assoc]
  refine Bad.pure_left fun hb' => ?_
  simp only [Bool.false_eq_true, if_false]
  have hend : Triple True (isVec e v b' N ws) (end_ v) (fun r => ⌜r = (b', 1 + ws.length)⌝ ∗ isVec e v b' N ws) := by
    unfold isVec; xintro h; call end_spec; intro r; xsub; cancel
  refine Bad.bind hend fun r => ?_
  rw [sep_assoc]
  refine Bad.pure_left ?_
  rintro rfl
  refine Bad.bind vtype_spec fun r => ?_
  rw [sep_assoc]
  refine Bad.pure_left ?_
  rintro rfl
  refine Bad.head ?_
  intro s _ hs
  rw [hT]
  refine fill_bad' (j := N - ws.length) (by omega) ?_
  exact vec_out hp hb' hF (by omega) hs

theorem Bad.create {k : Addr → M V α} (e : ElemSpec True (T ty) W) (hty : ty ≠ 0) (hk : ∀ v, v ≠ 0 → Bad (isVec e v 0 0 [] ∗ F) (k v)) : Bad F (create ty >>= k) := by
  have h : Triple True emp (Vec.create (V := V) ty) (fun r => ⌜r ≠ 0⌝ ∗ isVec e r 0 0 []) := by
    rw [← bind_pure (Vec.create ty)]
    refine create_spec (e := e) hty (fun h => absurd trivial h) fun v hv => ?_
    apply Triple.ret; rw [sep_emp]; exact ent_pure_right hv (ent_refl _)
  refine Bad.pre (P' := emp ∗ F) (by rw [emp_sep]; exact ent_refl _) ?_
  refine Bad.bind h fun r => ?_
  rw [sep_assoc]
  exact Bad.pure_left fun hr => hk r hr

theorem createN_wide_bad {t : Ty V} (hT : T ty = plainOps t) (e : ElemSpec True (T ty) W) (hp : e.Plain) (hty : ty ≠ 0) (hF : Closed F) {count : Nat} {value : Loc}
    (hv0 : value.1 ≠ 0) (hz : 0 < z) (hw : 0 < w) (hc : count < w) (hbig : w ≤ count * z) : Bad F (createNW z w T ty count value) := by
  unfold createNW
  have hc0 : count ≠ 0 := by rintro rfl; simp at hbig; omega
  rw [if_neg (by simp [hv0, hc0])]
  refine Bad.create e hty fun v hv => ?_
  rw [if_neg hv]
  exact Bad.head (resize_wide_bad hT hp hF hz (by omega) hc (by omega) hbig)

theorem createFromArray_wide_bad {t : Ty V} (hT : T ty = plainOps t) (e : ElemSpec True (T ty) W) (hp : e.Plain) (hty : ty ≠ 0) (hF : Closed F) {count : Nat} {values : Loc}
    (hv0 : values.1 ≠ 0) (hz : 0 < z) (hw : 0 < w) (hc : count < w) (hbig : w ≤ count * z) : Bad F (createFromArrayW z w T ty values count) := by
  unfold createFromArrayW
  have hc0 : count ≠ 0 := by rintro rfl; simp at hbig; omega
  rw [if_neg (by simp [hv0, hc0])]
  refine Bad.create e hty fun v hv => ?_
  rw [if_neg hv]
  refine Bad.head ?_
  unfold reserveW
  rw [if_neg hv]
  refine Bad.bind vcapacity_spec fun r => ?_
  rw [sep_assoc]
  refine Bad.pure_left ?_
  rintro rfl
  rw [if_neg (by omega)]
  exact resize_wide_bad hT hp hF hz (by omega) hc (by omega) hbig

end Wraps

/-- `c_vector_max_size`, container/c_vector.c:659-662: `(size_t)-1`, in a `size_t` with `w` values; so are backend_max_size (container/c_vector.c:432-435,
container/c_deque.c:481-484, container/c_list.c:498-501), c_deque_max_size (container/c_deque.c:756-759), c_list_max_size (container/c_list.c:682-685), c_slist_max_size
(container/c_forward_list.c:369-372) and c_tree_max_size (container/c_tree.c:1035-1038), to which the sets and maps forward. -/
def maxSize (w : Nat) : Nat := (w - 1) % w

end CC.Vec
