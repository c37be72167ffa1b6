import Verif.Vec.Amort
import Verif.Deq.Amort
import Verif.Props.CVector
import Verif.Props.CDeque
/-!
# C87, C88: the time of the vector and deque operations

Time is counted in memory accesses (loads, stores, calls of malloc and free; a call of memmove or memcpy for `n` elements counts `2 * n`).  `Takes (T ty) t`: each of the functions
create, copy and destroy of the element type makes at most `t` accesses (3 for the built-in types, see `plain_takes`; 6 for objects that own a block, `box_takes`).
-/
namespace CC.Vec
open CC.Tac
variable {V W β α : Type} {nf : Prop} {T : Nat → Ops V} {ty : Nat} {e : ElemSpec nf (T ty) W}
variable {v b n cap : Nat} {ws : List W} {R : HProp V} {ρ : Loc → W}

/-! ## C87: amortised constant time at the ends -/

/-- Any sequence of push_back and pop_back on a vector takes at most `26 + 3 * t` accesses for each operation, and `t + 2` for each element the vector had before. -/
theorem C87_vector {e : ElemSpec True (T ty) W} (hp : e.Plain) {t : Nat} (hT : Takes (T ty) t) {ops : List Op} (ho : ∀ op ∈ ops, AtEnd e R ρ op) :
    TripleC True (isVec e v b cap ws ∗ R) (runOps T v ops) (fun _ => ∃ₛ b' cap', isVec e v b' cap' (endOf ρ ops ws) ∗ R)
      ((26 + 3 * t) * ops.length + (t + 2) * ws.length) := by
  intro s F hn hs
  have hcap : ws.length ≤ cap := vec_cap (R := R ∗ F) (by rw [← sep_assoc]; exact hs)
  refine TripleC.of_within (amortised hp hT ho ?_) s F hn hs
  have := Nat.mul_le_mul_left (t + 2) (show 2 * ws.length - cap ≤ ws.length by omega)
  omega

/-- A vector with one element and room for no more: a thousand times push_back, pop_back, push_back (which leaves 1001 elements) take at most 105005 accesses. -/
example : ∃ (m : Mem Nat) (v b : Nat), (isVec (T := fun _ => plainOps intTy) (ty := 1) (plainSpec (nf := True) intTy) v b 1 [3] ∗ live (plainSpec (nf := True) intTy) 1 1 [3]) m.cells ∧
    ∃ m', runOps (fun _ => plainOps intTy) v ((List.replicate 1000 [Op.pushBack (1, 1), .popBack, .pushBack (1, 1)]).flatten) m = some (.ok ((), m')) ∧ m'.clk ≤ m.clk + 105005 := by
  obtain ⟨m, v, b, ho, hm⟩ := exists_vec (V := Nat) intTy 1 (by simp) [3] (by simp)
  refine ⟨m, v, b, hm, ?_⟩
  have h := C87_vector (T := fun _ => plainOps intTy) (ty := 1) (e := plainSpec (nf := True) intTy) (v := v) (b := b) (cap := 1) (ws := [3])
    (R := live (plainSpec (nf := True) intTy) 1 1 [3]) (ρ := fun _ => 3) (ops := (List.replicate 1000 [Op.pushBack (1, 1), .popBack, .pushBack (1, 1)]).flatten)
    (plain_plain _) (plain_takes _) (by
      intro op hop
      simp only [List.mem_flatten, List.mem_replicate] at hop
      obtain ⟨l, ⟨_, rfl⟩, hop⟩ := hop
      simp only [List.mem_cons, List.not_mem_nil, or_false] at hop
      rcases hop with rfl | rfl | rfl
      · exact ⟨by decide, emp, rfl⟩
      · trivial
      · exact ⟨by decide, emp, rfl⟩)
  obtain ⟨_, m', h1, _, h2, _⟩ := h m emp (fun _ => ho) (by rw [sep_emp]; exact hm)
  refine ⟨m', h1, Nat.le_trans h2 ?_⟩
  rw [List.length_flatten, List.map_replicate, List.sum_replicate_nat]
  simp only [List.length_cons, List.length_nil]
  omega

/-! ## C88: the other operations are linear -/

/-- push_back: constant if there is room, linear in the size if not. -/
theorem C88_vector_push_back {value : Loc} {w : W} (hv0 : value.1 ≠ 0) (hp : e.Plain ∨ ws = [] ∨ ws.length < cap) {t : Nat} (hT : Takes (T ty) t) :
    TripleC nf (isVec e v b cap ws ∗ cell e value w) (pushBack T v value)
      (fun _ => ∃ₛ b' cap' ws', isVec e v b' cap' ws' ∗ cell e value w) (6 + t + (if ws.length = cap then 16 + t * ws.length + 2 * ws.length else 0)) := by
  refine TripleC.of_within (Triple.post (pushBack_time hv0 hp hT (Nat.le_refl _)) ?_)
  intro _
  xintro b' cap' ws' _
  xexists b', cap', ws'
  cancel

/-- pop_back takes constant time. -/
theorem C88_vector_pop_back {t : Nat} (hT : Takes (T ty) t) :
    TripleC nf (isVec e v b cap ws) (popBack T v) (fun _ => isVec e v b cap ws.dropLast) (8 + t) := by
  exact TripleC.of_within (popBack_time hT (Nat.le_refl _))

/-- clear: linear in the size. -/
theorem C88_vector_clear {t : Nat} (hT : Takes (T ty) t) : TripleC nf (isVec e v b cap ws) (clear T v) (fun _ => isVec e v b cap []) (7 + t * ws.length) := by
  exact TripleC.of_within (clear_time hT (Nat.le_refl _))

/-- destroy: linear in the size. -/
theorem C88_vector_destroy {t : Nat} (hT : Takes (T ty) t) : TripleC nf (isVec e v b cap ws) (destroy T v) (fun _ => emp) (14 + t * ws.length) := by
  exact TripleC.of_within (destroy_time hT (Nat.le_refl _))

/-- erase: linear in the number of elements behind the position. -/
theorem C88_vector_erase {X Y : List W} {w : W} {t : Nat} (hT : Takes (T ty) t) :
    TripleC nf (isVec e v b cap (X ++ w :: Y)) (erase T v (b, 1 + X.length))
      (fun r => ⌜r = (b, 1 + X.length)⌝ ∗ isVec e v b cap (X ++ Y)) (8 + t + 2 * Y.length) := by
  exact TripleC.of_within (erase_time hT (Nat.le_refl _))

/-- erase refuses a wrong position in constant time. -/
theorem C88_vector_erase_invalid {p : Loc} (hp : ¬ (p.1 = b ∧ 1 ≤ p.2 ∧ p.2 < 1 + ws.length)) {t : Nat} (hT : Takes (T ty) t) :
    TripleC nf (isVec e v b cap ws) (erase T v p) (fun r => ⌜r = (b, 1 + ws.length)⌝ ∗ isVec e v b cap ws) 4 := by
  exact TripleC.of_within (erase_invalid_time hp hT (Nat.le_refl _))

/-- erase_range: linear in the numbers of elements in the range and behind it. -/
theorem C88_vector_erase_range {X Y Z : List W} {t : Nat} (hT : Takes (T ty) t) :
    TripleC nf (isVec e v b cap (X ++ Y ++ Z)) (eraseRange T v (b, 1 + X.length) (b, 1 + X.length + Y.length))
      (fun r => ⌜r = (b, 1 + X.length)⌝ ∗ isVec e v b cap (X ++ Z)) (8 + t * Y.length + 2 * Z.length) := by
  exact TripleC.of_within (eraseRange_time hT (Nat.le_refl _))

/-- resize: linear in the number of new elements if there is room, in the number of dropped elements if it shrinks, and in all elements if the storage is reallocated. -/
theorem C88_vector_resize_with_value {count : Nat} {value : Loc} {w : W} (hp : e.Plain ∨ ws = [] ∨ count ≤ cap) {t : Nat} (hT : Takes (T ty) t) :
    TripleC nf (isVec e v b cap ws ∗ arg e value w) (resizeWithValue T v count value)
      (fun _ => ∃ₛ b' cap' ws', isVec e v b' cap' ws' ∗ arg e value w) (26 + t * (count - ws.length) + (if cap < count then t * ws.length + 2 * ws.length else t * (ws.length - count))) := by
  refine TripleC.of_within (Triple.post (resizeWithValue_time hp hT (Nat.le_refl _)) ?_)
  intro _
  xintro b' cap' ws' _
  xexists b', cap', ws'
  cancel

/-- likewise resize with the default value -/
theorem C88_vector_resize {count : Nat} (hp : e.Plain ∨ ws = [] ∨ count ≤ cap) {t : Nat} (hT : Takes (T ty) t) :
    TripleC nf (isVec e v b cap ws) (resize T v count)
      (fun _ => ∃ₛ b' cap' ws', isVec e v b' cap' ws') (26 + t * (count - ws.length) + (if cap < count then t * ws.length + 2 * ws.length else t * (ws.length - count))) := by
  refine TripleC.of_within (Triple.post (resize_time hp hT (Nat.le_refl _)) ?_)
  intro _
  xintro b' cap' ws' _
  xexists b', cap', ws'
  cancel

/-- reserve: constant if nothing is to be done, else linear in the requested capacity. -/
theorem C88_vector_reserve {k : Nat} (hp : e.Plain ∨ ws = []) {t : Nat} (hT : Takes (T ty) t) :
    TripleC nf (isVec e v b cap ws) (reserve T v k)
      (fun _ => ∃ₛ b' cap' ws', isVec e v b' cap' ws') (2 + (if cap < k then 26 + t * (k - ws.length) + (t * ws.length + 2 * ws.length) else 0)) := by
  refine TripleC.of_within (Triple.post (reserve_time hp hT (Nat.le_refl _)) ?_)
  intro _
  xintro b' cap' ws' _
  xexists b', cap', ws'
  cancel

/-- insert_n: linear in the number of new elements and the number of elements behind the position; if the storage is reallocated, also in the size. -/
theorem C88_vector_insert_n {X Y : List W} {count : Nat} {value : Loc} {w : W} (hv0 : value.1 ≠ 0)
    (hroom : (X ++ Y).length + count ≤ insCap cap (X ++ Y).length count)
    (hp : e.Plain ∨ X ++ Y = [] ∨ (X ++ Y).length + count ≤ cap) {t : Nat} (hT : Takes (T ty) t) :
    TripleC nf (isVec e v b cap (X ++ Y) ∗ cell e value w) (insertN T v (b, 1 + X.length) count value)
      (fun _ => ∃ₛ b' cap' ws', isVec e v b' cap' ws' ∗ cell e value w) (11 + t * count + 2 * Y.length + (if cap < (X ++ Y).length + count then 17 + t * (X ++ Y).length + 2 * (X ++ Y).length else 0)) := by
  refine TripleC.of_within (Triple.post (insertN_time hv0 hroom hp hT (Nat.le_refl _)) ?_)
  intro _
  xintro b' cap' ws' _
  xexists b', cap', ws'
  cancel

/-- insert_n refuses a wrong position in constant time. -/
theorem C88_vector_insert_n_invalid {count : Nat} {p value : Loc} (hv0 : value.1 ≠ 0) (hp : ¬ (p.1 = b ∧ 1 ≤ p.2 ∧ p.2 ≤ 1 + ws.length)) {t : Nat} (hT : Takes (T ty) t) :
    TripleC nf (isVec e v b cap ws) (insertN T v p count value) (fun r => ⌜r = (b, 1 + ws.length)⌝ ∗ isVec e v b cap ws) 3 := by
  exact TripleC.of_within (insertN_invalid_time hv0 hp hT (Nat.le_refl _))

/-- shrink_to_fit: linear in the size. -/
theorem C88_vector_shrink_to_fit (hp : e.Plain ∨ ws = [] ∨ ws.length = cap) {t : Nat} (hT : Takes (T ty) t) :
    TripleC nf (isVec e v b cap ws) (shrinkToFit T v)
      (fun _ => ∃ₛ b' cap', ⌜cap' = ws.length ∨ (¬ nf ∧ b' = b ∧ cap' = cap)⌝ ∗ isVec e v b' cap' ws) (14 + t * ws.length + 2 * ws.length) := by
  exact TripleC.of_within (shrinkToFit_time hp hT (Nat.le_refl _))

/-- copy: linear in the capacity (not the size: the copy is filled with default elements first, see C20). -/
theorem C88_vector_copy {T : Nat → Ops V} {e : ElemSpec True (T ty) W} (hp : e.Plain) (hty : ty ≠ 0) {t : Nat} (hT : Takes (T ty) t) :
    TripleC True (isVec e v b cap ws) (copy T v)
      (fun r => isVec e v b cap ws ∗ ∃ₛ b', isVec e r b' cap (ws ++ List.replicate (cap - ws.length) e.dflt)) (40 + t * cap + 2 * cap) := by
  exact TripleC.of_within (copy_time hp hty hT (Nat.le_refl _))

/-- assign: linear in the old size of the target, the capacity and the size of the source. -/
theorem C88_vector_assign {T : Nat → Ops V} {e : ElemSpec True (T ty) W} {v2 b2 cap2 : Nat} {ws2 : List W} (hp : e.Plain) {t : Nat} (hT : Takes (T ty) t) :
    TripleC True (isVec e v b cap ws ∗ isVec e v2 b2 cap2 ws2) (assign T v v2)
      (fun _ => isVec e v2 b2 cap2 ws2 ∗ ∃ₛ b' cap' ws', isVec e v b' cap' ws') (45 + t * ws.length + t * cap2 + 2 * ws2.length) := by
  refine TripleC.of_within (Triple.post (assign_time hp hT (Nat.le_refl _)) ?_)
  intro _
  xintro _ b'
  xexists b', _, _
  cancel

/-- create_n: linear in the number of elements. -/
theorem C88_vector_create_n {count : Nat} {value : Loc} {w : W} (hty : ty ≠ 0) (hv0 : value.1 ≠ 0) (hn : count ≠ 0) {t : Nat} (hT : Takes (T ty) t) :
    TripleC nf (cell e value w) (createN T ty count value)
      (fun r => cell e value w ∗ if r = 0 then emp else ∃ₛ b' cap' ws', isVec e r b' cap' ws') (33 + t * count) := by
  refine TripleC.of_within (Triple.post (createN_time hty hv0 hn hT (Nat.le_refl _)) ?_)
  intro r
  refine sep_mono (ent_refl _) (ent_pure_left fun _ => ?_)
  split
  · exact ent_refl _
  · xintro b' cap' ws' _
    xexists b', cap', ws'
    cancel

/-- create_from_array: linear in the number of elements. -/
theorem C88_vector_create_from_array {T : Nat → Ops V} {e : ElemSpec True (T ty) W} {vb vi : Nat} (hp : e.Plain) (hty : ty ≠ 0) (hvb : vb ≠ 0) (hws : ws ≠ []) {t : Nat} (hT : Takes (T ty) t) :
    TripleC True (live e vb vi ws) (createFromArray T ty (vb, vi) ws.length)
      (fun r => live e vb vi ws ∗ ∃ₛ b', isVec e r b' ws.length ws) (40 + t * ws.length + 2 * ws.length) := by
  exact TripleC.of_within (createFromArray_time hp hty hvb hws hT (Nat.le_refl _))


/-- An instance of the hypotheses: erasing the first of 3 elements takes at most 15 accesses, and copying the vector at most 55. -/
example : ∃ (m : Mem Nat) (v b : Nat) (r : Loc) (m' : Mem Nat) (c : Nat) (m'' : Mem Nat), (isVec (T := fun _ => plainOps intTy) (ty := 1) (plainSpec (nf := True) intTy) v b 3 [3, 1, 2] ∗ live (plainSpec (nf := True) intTy) 1 1 [3, 1, 2]) m.cells ∧
    erase (fun _ => plainOps intTy) v (b, 1) m = some (.ok (r, m')) ∧ m'.clk ≤ m.clk + 15 ∧
    copy (fun _ => plainOps intTy) v m = some (.ok (c, m'')) ∧ m''.clk ≤ m.clk + 55 := by
  obtain ⟨m, v, b, ho, hm⟩ := exists_vec (V := Nat) intTy 1 (by simp) [3, 1, 2] (by simp)
  obtain ⟨r, m', h1, _, h2, _⟩ := C88_vector_erase (T := fun _ => plainOps intTy) (ty := 1) (e := plainSpec (nf := True) intTy) (v := v) (b := b) (cap := 3)
    (X := []) (Y := [1, 2]) (w := 3) (plain_takes _) m _ (fun _ => ho) hm
  obtain ⟨c, m'', h3, _, h4, _⟩ := C88_vector_copy (T := fun _ => plainOps intTy) (ty := 1) (e := plainSpec (nf := True) intTy) (v := v) (b := b) (cap := 3)
    (ws := [3, 1, 2]) (plain_plain _) (by simp) (plain_takes _) m _ (fun _ => ho) hm
  exact ⟨m, v, b, r, m', c, m'', hm, h1, h2, h3, h4⟩

/-- Objects that own a block meet `Takes`, too. -/
example {V : Type} (t : Ty V) : Takes (boxOps t) 6 := box_takes t

end CC.Vec

namespace CC.Deq
open CC.Tac
open CC.Vec (arg arg_cell arg_null intTy)
variable {V W β α : Type} {nf : Prop} {T : Nat → Ops V} {ty : Nat} {e : ElemSpec nf (T ty) W}
variable {v b lo n hi : Nat} {ws : List W} {R : HProp V} {ρ : Loc → W}

/-! ## C87: amortised constant time at the ends -/

/-- Any sequence of push and pop at both ends of a deque takes at most `43 + 11 * t` accesses for each operation, and `t + 2` for each slot the deque had before. -/
theorem C87_deque {e : ElemSpec True (T ty) W} (hp : e.Plain) {t : Nat} (hT : Takes (T ty) t) {ops : List Op} (ho : ∀ op ∈ ops, AtEnds e R ρ op) :
    TripleC True (isDeq e v b lo hi ws ∗ R) (runOps T v ops) (fun _ => ∃ₛ b' lo' hi', isDeq e v b' lo' hi' (endsOf ρ ops ws) ∗ R)
      ((43 + 11 * t) * ops.length + (t + 2) * (lo + ws.length + hi)) := by
  refine TripleC.of_within (amortised hp hT ho ?_)
  have := Nat.mul_le_mul_left (t + 2) (show pot lo ws.length hi ≤ lo + ws.length + hi by unfold pot; omega)
  omega

/-- A deque with one element, used as a queue a thousand times. -/
example : ∃ (m : Mem Nat) (v b lo hi : Nat), (isDeq (T := fun _ => plainOps intTy) (ty := 1) (plainSpec (nf := True) intTy) v b lo hi [3] ∗ live (plainSpec (nf := True) intTy) 1 1 [3]) m.cells ∧
    ∃ m', runOps (fun _ => plainOps intTy) v ((List.replicate 1000 [Op.pushBack (1, 1), .popFront]).flatten) m = some (.ok ((), m')) ∧ m'.clk ≤ m.clk + (152000 + 5 * (lo + 1 + hi)) := by
  obtain ⟨m, v, b, lo, hi, ho, hm⟩ := exists_deq (V := Nat) intTy 1 (by simp) [3] (by simp)
  refine ⟨m, v, b, lo, hi, hm, ?_⟩
  have h := C87_deque (T := fun _ => plainOps intTy) (ty := 1) (e := plainSpec (nf := True) intTy) (v := v) (b := b) (lo := lo) (hi := hi) (ws := [3])
    (R := live (plainSpec (nf := True) intTy) 1 1 [3]) (ρ := fun _ => 3) (ops := (List.replicate 1000 [Op.pushBack (1, 1), .popFront]).flatten)
    (plain_plain _) (plain_takes _) (by
      intro op hop
      simp only [List.mem_flatten, List.mem_replicate] at hop
      obtain ⟨l, ⟨_, rfl⟩, hop⟩ := hop
      simp only [List.mem_cons, List.not_mem_nil, or_false] at hop
      rcases hop with rfl | rfl
      · exact ⟨by decide, emp, rfl⟩
      · trivial)
  obtain ⟨_, m', h1, _, h2, _⟩ := h m emp (fun _ => ho) (by rw [sep_emp]; exact hm)
  refine ⟨m', h1, Nat.le_trans h2 ?_⟩
  rw [List.length_flatten, List.map_replicate, List.sum_replicate_nat]
  simp only [List.length_cons, List.length_nil]
  omega

/-! ## C88: the other operations are linear -/

/-- push_back: constant if there is room, linear in the size if not. -/
theorem C88_deque_push_back {value : Loc} {w : W} (hv0 : value.1 ≠ 0) (hp : e.Plain ∨ ws = [] ∨ 0 < hi) {t : Nat} (hT : Takes (T ty) t) :
    TripleC nf (isDeq e v b lo hi ws ∗ cell e value w) (pushBack T v value)
      (fun _ => ∃ₛ b' lo' hi' ws', isDeq e v b' lo' hi' ws' ∗ cell e value w) (6 + t + (if hi = 0 then 17 + t * ws.length + 2 * ws.length else 0)) := by
  refine TripleC.of_within (Triple.post (pushBack_time hv0 hp hT (Nat.le_refl _)) ?_)
  intro _
  xintro b' lo' hi' ws' _
  xexists b', lo', hi', ws'
  cancel

/-- push_front: constant if there is room, linear in the size if not. -/
theorem C88_deque_push_front {value : Loc} {w : W} (hv0 : value.1 ≠ 0) (hp : e.Plain ∨ ws = [] ∨ 0 < lo) {t : Nat} (hT : Takes (T ty) t) :
    TripleC nf (isDeq e v b lo hi ws ∗ cell e value w) (pushFront T v value)
      (fun _ => ∃ₛ b' lo' hi' ws', isDeq e v b' lo' hi' ws' ∗ cell e value w) (6 + t + (if lo = 0 then 17 + t * ws.length + 2 * ws.length else 0)) := by
  refine TripleC.of_within (Triple.post (pushFront_time hv0 hp hT (Nat.le_refl _)) ?_)
  intro _
  xintro b' lo' hi' ws' _
  xexists b', lo', hi', ws'
  cancel

/-- pop_back takes constant time. -/
theorem C88_deque_pop_back {w : W} {t : Nat} (hT : Takes (T ty) t) :
    TripleC nf (isDeq e v b lo hi (ws ++ [w])) (popBack T v) (fun _ => isDeq e v b lo (hi + 1) ws) (8 + t) := by
  exact TripleC.of_within (popBack_time hT (Nat.le_refl _))

/-- pop_front takes constant time. -/
theorem C88_deque_pop_front {w : W} {t : Nat} (hT : Takes (T ty) t) :
    TripleC nf (isDeq e v b lo hi (w :: ws)) (popFront T v) (fun _ => isDeq e v b (lo + 1) hi ws) (8 + t) := by
  exact TripleC.of_within (popFront_time hT (Nat.le_refl _))

/-- clear: linear in the size. -/
theorem C88_deque_clear {t : Nat} (hT : Takes (T ty) t) :
    TripleC nf (isDeq e v b lo hi ws) (clear T v)
      (fun _ => ∃ₛ lo' hi', isDeq e v b lo' hi' []) (11 + t * ws.length) := by
  refine TripleC.of_within (Triple.post (clear_any_time hT (Nat.le_refl _)) ?_)
  intro _
  xexists _, _
  rw [sep_emp]
  exact ent_refl _

/-- destroy: linear in the size. -/
theorem C88_deque_destroy {t : Nat} (hT : Takes (T ty) t) : TripleC nf (isDeq e v b lo hi ws) (destroy T v) (fun _ => emp) (19 + t * ws.length) := by
  exact TripleC.of_within (destroy_time hT (Nat.le_refl _))

/-- erase: linear in the number of elements behind the position. -/
theorem C88_deque_erase {X Y : List W} {w : W} {t : Nat} (hT : Takes (T ty) t) :
    TripleC nf (isDeq e v b lo hi (X ++ w :: Y)) (erase T v (b, 1 + lo + X.length))
      (fun r => ⌜r = (b, 1 + lo + X.length)⌝ ∗ isDeq e v b lo (hi + 1) (X ++ Y)) (8 + t + 2 * Y.length) := by
  exact TripleC.of_within (erase_time hT (Nat.le_refl _))

/-- erase refuses a wrong position in constant time. -/
theorem C88_deque_erase_invalid {p : Loc} (hp : ¬ (p.1 = b ∧ 1 + lo ≤ p.2 ∧ p.2 < 1 + lo + ws.length)) {t : Nat} (hT : Takes (T ty) t) :
    TripleC nf (isDeq e v b lo hi ws) (erase T v p) (fun r => ⌜r = (b, 1 + lo + ws.length)⌝ ∗ isDeq e v b lo hi ws) 4 := by
  exact TripleC.of_within (erase_invalid_time hp hT (Nat.le_refl _))

/-- erase_range: linear in the numbers of elements in the range and behind it. -/
theorem C88_deque_erase_range {X Y Z : List W} {t : Nat} (hT : Takes (T ty) t) :
    TripleC nf (isDeq e v b lo hi (X ++ Y ++ Z)) (eraseRange T v (b, 1 + lo + X.length) (b, 1 + lo + X.length + Y.length))
      (fun r => ⌜r = (b, 1 + lo + X.length)⌝ ∗ isDeq e v b lo (hi + Y.length) (X ++ Z)) (8 + t * Y.length + 2 * Z.length) := by
  exact TripleC.of_within (eraseRange_time hT (Nat.le_refl _))

/-- erase_range refuses a wrong range in constant time. -/
theorem C88_deque_erase_range_invalid {p q : Loc} (hp : ¬ (p.1 = b ∧ q.1 = b ∧ 1 + lo ≤ p.2 ∧ p.2 ≤ q.2 ∧ q.2 ≤ 1 + lo + ws.length)) {t : Nat} (hT : Takes (T ty) t) :
    TripleC nf (isDeq e v b lo hi ws) (eraseRange T v p q) (fun r => ⌜r = (b, 1 + lo + ws.length)⌝ ∗ isDeq e v b lo hi ws) 5 := by
  exact TripleC.of_within (eraseRange_invalid_time hp hT (Nat.le_refl _))

/-- insert_n: linear in the number of new elements and the size. -/
theorem C88_deque_insert_n {X Y : List W} {count : Nat} {value : Loc} {w : W} (hv0 : value.1 ≠ 0)
    (hp : e.Plain ∨ X ++ Y = [] ∨ count ≤ lo + hi) {t : Nat} (hT : Takes (T ty) t) :
    TripleC nf (isDeq e v b lo hi (X ++ Y) ∗ cell e value w) (insertN T v (b, 1 + lo + X.length) count value)
      (fun _ => ∃ₛ b' lo' hi' ws', isDeq e v b' lo' hi' ws' ∗ cell e value w) (22 + t * count + 2 * X.length + 2 * Y.length + (if lo + hi < count then 6 + (17 + t * (X ++ Y).length + 2 * (X ++ Y).length) else 0)) := by
  refine TripleC.of_within (Triple.post (insertN_time hv0 hp hT (Nat.le_refl _)) ?_)
  intro _
  xintro b' lo' hi' ws' _
  xexists b', lo', hi', ws'
  cancel

/-- insert_n refuses a wrong position in constant time. -/
theorem C88_deque_insert_n_invalid {count : Nat} {p value : Loc} (hv0 : value.1 ≠ 0) (hp : ¬ (p.1 = b ∧ 1 + lo ≤ p.2 ∧ p.2 ≤ 1 + lo + ws.length)) {t : Nat} (hT : Takes (T ty) t) :
    TripleC nf (isDeq e v b lo hi ws) (insertN T v p count value) (fun r => ⌜r = (b, 1 + lo + ws.length)⌝ ∗ isDeq e v b lo hi ws) 3 := by
  exact TripleC.of_within (insertN_invalid_time hv0 hp hT (Nat.le_refl _))

/-- a growing resize: linear in the new size. -/
theorem C88_deque_resize_grow {count : Nat} {value : Loc} {w : W} (hlt : ws.length < count) (hp : e.Plain ∨ ws = [] ∨ count - ws.length ≤ lo + hi) {t : Nat} (hT : Takes (T ty) t) :
    TripleC nf (isDeq e v b lo hi ws ∗ arg e value w) (resizeWithValue T v count value)
      (fun _ => ∃ₛ b' lo' hi' ws', isDeq e v b' lo' hi' ws' ∗ arg e value w) (26 + t * (count - ws.length) + 2 * ws.length + (if lo + hi < count - ws.length then 17 + t * ws.length + 2 * ws.length else 0)) := by
  refine TripleC.of_within (Triple.post (resize_grow_time hlt hp hT (Nat.le_refl _)) ?_)
  intro _
  xintro b' lo' hi' ws' _
  xexists b', lo', hi', ws'
  cancel

/-- a shrinking resize: linear in the number of dropped elements. -/
theorem C88_deque_resize_shrink {X Y : List W} {value : Loc} {t : Nat} (hT : Takes (T ty) t) :
    TripleC nf (isDeq e v b lo hi (X ++ Y)) (resizeWithValue T v X.length value) (fun _ => isDeq e v b lo (hi + Y.length) X) (6 + t * Y.length) := by
  exact TripleC.of_within (resize_shrink_time hT (Nat.le_refl _))

/-- shrink_to_fit: linear in the size. -/
theorem C88_deque_shrink_to_fit (hp : e.Plain ∨ ws = [] ∨ (lo = 0 ∧ hi = 0)) {t : Nat} (hT : Takes (T ty) t) :
    TripleC nf (isDeq e v b lo hi ws) (shrinkToFit T v)
      (fun _ => ∃ₛ b' lo' hi', ⌜lo' = 0 ∧ hi' = 0 ∨ (¬ nf ∧ b' = b ∧ lo' = lo ∧ hi' = hi)⌝ ∗ isDeq e v b' lo' hi' ws) (20 + t * ws.length + 2 * ws.length) := by
  exact TripleC.of_within (shrinkToFit_time hp hT (Nat.le_refl _))

/-- copy: linear in the capacity (see C25). -/
theorem C88_deque_copy {T : Nat → Ops V} {e : ElemSpec True (T ty) W} (hp : e.Plain) (hty : ty ≠ 0) {t : Nat} (hT : Takes (T ty) t) :
    TripleC True (isDeq e v b lo hi ws) (copy T v)
      (fun r => isDeq e v b lo hi ws ∗ ∃ₛ b' lo' hi', isDeq e r b' lo' hi' (ws ++ List.replicate (lo + hi) e.dflt)) (58 + t * (lo + ws.length + hi) + 2 * ws.length) := by
  exact TripleC.of_within (copy_time hp hty hT (Nat.le_refl _))

/-- create_from: linear in the number of elements. -/
theorem C88_deque_create_from {T : Nat → Ops V} {e : ElemSpec True (T ty) W} {vb vi : Nat} (hp : e.Plain) (hty : ty ≠ 0) (hvb : vb ≠ 0) (hws : ws ≠ []) {t : Nat} (hT : Takes (T ty) t) :
    TripleC True (live e vb vi ws) (createFrom T ty (vb, vi) ws.length)
      (fun r => live e vb vi ws ∗ ∃ₛ b' lo' hi', isDeq e r b' lo' hi' ws) (53 + t * ws.length + 2 * ws.length) := by
  exact TripleC.of_within (createFrom_time hp hty hvb hws hT (Nat.le_refl _))

/-- assign from a source with more slots: linear in the old size of the target and the slots of the source. -/
theorem C88_deque_assign_grow {T : Nat → Ops V} {e : ElemSpec True (T ty) W} {v2 b2 lo2 hi2 : Nat} {ws2 : List W} (hp : e.Plain)
    (hlt : lo + ws.length + hi < lo2 + ws2.length + hi2) {t : Nat} (hT : Takes (T ty) t) :
    TripleC True (isDeq e v b lo hi ws ∗ isDeq e v2 b2 lo2 hi2 ws2) (assign T v v2)
      (fun r => ⌜r = v⌝ ∗ isDeq e v2 b2 lo2 hi2 ws2 ∗ ∃ₛ b' lo' hi', isDeq e v b' lo' hi' (ws2 ++ List.replicate (lo2 + hi2) e.dflt)) (64 + t * ws.length + t * (lo2 + ws2.length + hi2) + 2 * ws2.length) := by
  exact TripleC.of_within (assign_grow_time hp hlt hT (Nat.le_refl _))

/-- assign in the other case (in which the contents are lost, see C25): linear in the old size of the target and the size of the source. -/
theorem C88_deque_assign_lost {T : Nat → Ops V} {e : ElemSpec True (T ty) W} {v2 b2 lo2 hi2 : Nat} {ws2 : List W} (hp : e.Plain)
    (hge : lo2 + ws2.length + hi2 ≤ lo + ws.length + hi) (hfit : ws2.length ≤ clearHi lo hi ws) {t : Nat} (hT : Takes (T ty) t) :
    TripleC True (isDeq e v b lo hi ws ∗ isDeq e v2 b2 lo2 hi2 ws2) (assign T v v2)
      (fun r => ⌜r = v⌝ ∗ isDeq e v2 b2 lo2 hi2 ws2 ∗ ∃ₛ lo' hi' ws', isDeq e v b lo' hi' ws') (21 + t * ws.length + 2 * ws2.length) := by
  refine TripleC.of_within (Triple.post (assign_lost_time hp hge hfit hT (Nat.le_refl _)) ?_)
  intro r
  refine sep_mono (ent_refl _) (sep_mono (ent_refl _) ?_)
  xexists _, _, _
  rw [sep_emp]
  exact ent_refl _


/-- An instance of the hypotheses: a deque of 3 elements is destroyed with at most 28 accesses. -/
example : ∃ (m : Mem Nat) (v b lo hi : Nat) (m' : Mem Nat), (isDeq (T := fun _ => plainOps intTy) (ty := 1) (plainSpec (nf := True) intTy) v b lo hi [3, 1, 2] ∗ live (plainSpec (nf := True) intTy) 1 1 [3, 1, 2]) m.cells ∧
    destroy (fun _ => plainOps intTy) v m = some (.ok ((), m')) ∧ m'.clk ≤ m.clk + 28 := by
  obtain ⟨m, v, b, lo, hi, ho, hm⟩ := exists_deq (V := Nat) intTy 1 (by simp) [3, 1, 2] (by simp)
  obtain ⟨_, m', h1, _, h2, _⟩ := C88_deque_destroy (T := fun _ => plainOps intTy) (ty := 1) (e := plainSpec (nf := True) intTy) (v := v) (b := b) (lo := lo) (hi := hi)
    (ws := [3, 1, 2]) (plain_takes _) m _ (fun _ => ho) hm
  exact ⟨m, v, b, lo, hi, m', hm, h1, h2⟩

end CC.Deq
