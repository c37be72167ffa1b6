import Verif.Vec.Starve
import Verif.Deq.Starve
import Verif.Props.CVector
import Verif.Props.CDeque
/-!
# C84 Creating, copying and assigning vectors and deques when memory runs out

A user relies on: when a request for memory is refused, the creating and copying functions return NULL or a container they were asked for, assigning leaves two
usable containers, and the sources are not changed.

`On w P m Q w'` (Core/Sched): if the next requests are granted or refused as the list `w` says, `m` returns with `Q`.  `BadOn w P m`: then `m` ends in undefined
behaviour.  `Exhausted` and `Ruined` are the same for an allocator that refuses every request.  The element types are arbitrary, except for `assign`, where they are
plain data (`e.Plain`).
-/
namespace CC.Vec
open CC CC.Tac
variable {V W : Type} {T : Nat → Ops V} {ty : Nat} {e : ElemSpec False (T ty) W} {v b cap v2 b2 cap2 : Nat} {ws ws2 : List W} {F : HProp V} {w : List Bool}

/-- If the request for the vector object is refused, copy returns NULL and the source is unchanged. (Missing: the request for the elements, see
`C84_vector_copy_violated`.) -/
theorem C84_vector_copy_partial (hty : ty ≠ 0) :
    On (false :: w) (isVec e v b cap ws ∗ F) (copy T v) (fun r => ⌜r = 0⌝ ∗ isVec e v b cap ws ∗ F) w := copy_refused hty

/-- If the request for the vector object is granted and the next one, for the elements, refused, copying a vector that has elements is undefined behaviour: the
failure is not noticed and the elements are copied to the NULL pointer. -/
theorem C84_vector_copy_violated (hty : ty ≠ 0) (hws : ws ≠ []) : BadOn [true, false] (isVec e v b cap ws ∗ F) (copy T v) := copy_starved hty hws

/-- If the request for the vector object is refused, create_from_array returns NULL and changes nothing. -/
theorem C84_vector_create_from_array_partial {values : Loc} {n : Nat} (hty : ty ≠ 0) (hv : values.1 ≠ 0) (hn : n ≠ 0) :
    On [false] F (createFromArray T ty values n) (fun r => ⌜r = 0⌝ ∗ F) [] :=
  (createFromArray_refused hty).resolve_right (by simp [hv, hn])

/-- If only the first of its two requests is granted, create_from_array is undefined behaviour. -/
theorem C84_vector_create_from_array_violated {values : Loc} {n : Nat} (e : ElemSpec False (T ty) W) (hty : ty ≠ 0) (hv : values.1 ≠ 0) (hn : n ≠ 0) :
    BadOn [true, false] F (createFromArray T ty values n) := createFromArray_starved hty hv hn e

/-- Whatever the allocator does, create_n returns NULL, or a vector with the elements asked for, or an empty vector (from which the caller can tell the failure). -/
theorem C84_vector_create_n {count : Nat} {value : Loc} {x : W} (hty : ty ≠ 0) (hv0 : value.1 ≠ 0) (hn : count ≠ 0) :
    Triple False (cell e value x) (createN T ty count value)
      (fun r => cell e value x ∗ if r = 0 then emp else ∃ₛ b' cap' ws', ⌜ws' = List.replicate count x ∨ ws' = []⌝ ∗ isVec e r b' cap' ws') := by
  refine Triple.post (createN_spec hty hv0 hn) ?_
  intro r
  by_cases hr : r = 0
  · rw [if_pos hr, if_pos hr]
    xintro _
    cancel
  · rw [if_neg hr, if_neg hr]
    xintro _ b' cap' ws' h
    xexists b', cap', ws'
    cancel
    exact h.imp And.left fun h => h.2.1

/-- If every request is refused and the elements of the source fit into the target's storage, assign leaves two usable vectors: the source unchanged and the target
empty (that it is empty although nothing had to be allocated if the capacity suffices is C20). -/
theorem C84_vector_assign_partial (hp : e.Plain) (hfit : ws2.length ≤ cap) :
    Exhausted (isVec e v b cap ws ∗ isVec e v2 b2 cap2 ws2) (assign T v v2) (fun r => ⌜r = v⌝ ∗ isVec e v b cap [] ∗ isVec e v2 b2 cap2 ws2) :=
  assign_starved_fits hp hfit

/-- If every request is refused and the source has more elements than the target has room for, assign is undefined behaviour: it writes behind the storage of the
target. -/
theorem C84_vector_assign_violated (hp : e.Plain) (hfit : cap < ws2.length) :
    Ruined (isVec e v b cap ws ∗ isVec e v2 b2 cap2 ws2) (assign T v v2) := assign_starved hp hfit

/-! ### Non-vacuity: memories the API reaches -/

theorem plain_nf {nf nf' : Prop} {t : Ty V} {b : Nat} : ∀ {i : Nat} {ws : List V}, live (plainSpec (nf := nf) t) b i ws = live (plainSpec (nf := nf') t) b i ws
  | _, [] => rfl
  | i, w :: ws => by
    show cell (plainSpec (nf := nf) t) (b, i) w ∗ live (plainSpec (nf := nf) t) b (i + 1) ws = cell (plainSpec (nf := nf') t) (b, i) w ∗ live (plainSpec (nf := nf') t) b (i + 1) ws
    rw [plain_nf (nf' := nf')]
    rfl

/-- the representation of vectors of plain data does not depend on the assumption on the allocator -/
theorem vec_nf {nf nf' : Prop} {t : Ty V} {ws : List V} : isVec (T := fun _ => plainOps t) (ty := ty) (plainSpec (nf := nf) t) v b cap ws =
    isVec (T := fun _ => plainOps t) (ty := ty) (plainSpec (nf := nf') t) v b cap ws := by
  unfold isVec
  rw [plain_nf (nf' := nf')]

/-- the allocator grants exactly the next request -/
def onceMore (m : Mem V) : Mem V := { m with orc := fun t => if t = m.tick then 1 else 0 }

theorem onceMore_follows (m : Mem V) : Follows (onceMore m) [true, false] := by
  refine ⟨?_, ?_, trivial⟩ <;> simp [onceMore]

/-- a vector of three `int`s made by the API, copied when only one more request is granted -/
example : ∃ (m : Mem Nat) (v b : Nat) (R : HProp Nat), (isVec (T := fun _ => plainOps intTy) (ty := 1) (plainSpec (nf := False) intTy) v b 3 [3, 1, 2] ∗ R) m.cells ∧
    copy (fun _ => plainOps intTy) v m = some (.error .ub) := by
  obtain ⟨m, v, b, _, hm⟩ := exists_vec (V := Nat) intTy 1 (by simp) [3, 1, 2] (by simp)
  rw [vec_nf (nf' := False)] at hm
  exact ⟨onceMore m, v, b, _, hm, C84_vector_copy_violated (ty := 1) (by simp) (by simp) _ (onceMore_follows m) hm⟩

/-- … and when none is -/
example : ∃ (m m' : Mem Nat) (v b : Nat) (R : HProp Nat), (isVec (T := fun _ => plainOps intTy) (ty := 1) (plainSpec (nf := False) intTy) v b 3 [3, 1, 2] ∗ R) m.cells ∧
    copy (fun _ => plainOps intTy) v m = some (.ok (0, m')) := by
  obtain ⟨m, v, b, _, hm⟩ := exists_vec (V := Nat) intTy 1 (by simp) [3, 1, 2] (by simp)
  rw [vec_nf (nf' := False)] at hm
  obtain ⟨a, m', h1, _, _, h2⟩ := C84_vector_copy_partial (w := []) (by simp) { m with orc := fun _ => 0 } (Follows.none (by simp) 1) hm
  rw [hpure_sep_apply] at h2
  obtain ⟨rfl, h2⟩ := h2
  exact ⟨{ m with orc := fun _ => 0 }, m', v, b, _, hm, h1⟩

/-- an array of `int`s, given to create_from_array when only one more request is granted -/
example : ∃ (m : Mem Nat), createFromArray (fun _ => plainOps intTy) 1 (1, 1) 3 m = some (.error .ub) := by
  obtain ⟨m, _, hm⟩ := exists_array [3, 1, 2] (fun _ => 1)
  exact ⟨onceMore m, C84_vector_create_from_array_violated (plainSpec (nf := False) intTy) (by simp) (by simp) (by simp) _ (onceMore_follows m) hm⟩

/-- two vectors and nothing else, made by the API -/
theorem exists_vecs {e : ElemSpec True (T ty) W} (hty : ty ≠ 0) (k1 k2 : Nat) : ∃ (m : Mem V) (v b v2 b2 : Nat),
    (isVec e v b k1 (List.replicate k1 e.dflt) ∗ isVec e v2 b2 k2 (List.replicate k2 e.dflt)) m.cells := by
  have hmk : ∀ k, Triple True emp (do let v ← create (V := V) ty; resize T v k; pure v) (fun r => ∃ₛ b, isVec e r b k (List.replicate k e.dflt)) := by
    intro k
    refine create_spec (e := e) hty (fun h => absurd trivial h) fun r hr => ?_
    call (resize_spec (e := e) (v := r) (b := 0) (cap := 0) (ws := []) (count := k) (Or.inr (Or.inl rfl)))
    intro _
    xintro b' cap' ws' h
    apply Triple.ret
    obtain ⟨h1, h2, _⟩ := h.resolve_right (fun h => h.1 trivial)
    xexists b'
    have : cap' = k := by
      rw [h2]
      split
      · simp only [newCap, List.length_nil]; split <;> omega
      · omega
    subst this
    simp at h1
    subst h1
    cancel
  have ht : Triple True emp (do
      let v ← (do let v ← create (V := V) ty; resize T v k1; pure v)
      let v2 ← (do let v ← create (V := V) ty; resize T v k2; pure v)
      pure (v, v2)) (fun r => ∃ₛ b b2, isVec e r.1 b k1 (List.replicate k1 e.dflt) ∗ isVec e r.2 b2 k2 (List.replicate k2 e.dflt)) := by
    call (hmk k1)
    intro v
    xintro b
    call (hmk k2)
    intro v2
    xintro b2
    apply Triple.ret
    xexists b, b2
    cancel
  obtain ⟨m, ho, hm⟩ := exists_array ([] : List V) (fun _ => 1)
  obtain ⟨r, m', _, ho', hm'⟩ := ht.run (F := emp) (s := m) (fun _ t => by rw [ho]; simp) (by rw [sep_emp]; exact hm)
  rw [sep_emp] at hm'
  obtain ⟨b, b2, hm'⟩ := hm'
  exact ⟨m', r.1, b, r.2, b2, hm'⟩

/-- assigning a vector of three `int`s to a vector of one when every request is refused … -/
example : ∃ (m : Mem Nat) (v v2 : Nat), assign (fun _ => plainOps intTy) v v2 m = some (.error .ub) := by
  obtain ⟨m, v, b, v2, b2, hm⟩ := exists_vecs (T := fun _ => plainOps intTy) (ty := 1) (e := plainSpec (nf := True) intTy) (by simp) 1 3
  rw [vec_nf (nf' := False), vec_nf (v := v2) (nf' := False)] at hm
  exact ⟨{ m with orc := fun _ => 0 }, v, v2, C84_vector_assign_violated (plain_plain _) (by simp) _ (by simp) hm⟩

/-- … and the other way round -/
example : ∃ (m m' : Mem Nat) (v v2 : Nat), assign (fun _ => plainOps intTy) v v2 m = some (.ok (v, m')) := by
  obtain ⟨m, v, b, v2, b2, hm⟩ := exists_vecs (T := fun _ => plainOps intTy) (ty := 1) (e := plainSpec (nf := True) intTy) (by simp) 3 1
  rw [vec_nf (nf' := False), vec_nf (v := v2) (nf' := False)] at hm
  obtain ⟨a, m', h1, _, h2⟩ := C84_vector_assign_partial (plain_plain _) (by simp) { m with orc := fun _ => 0 } (by simp) hm
  rw [hpure_sep_apply] at h2
  obtain ⟨rfl, h2⟩ := h2
  exact ⟨_, m', a, v2, h1⟩

end CC.Vec

namespace CC.Deq
open CC CC.Tac
open CC.Vec (plain_nf onceMore onceMore_follows intTy)
variable {V W : Type} {T : Nat → Ops V} {ty : Nat} {e : ElemSpec False (T ty) W} {v b lo hi v2 b2 lo2 hi2 : Nat} {ws ws2 : List W} {F : HProp V} {w : List Bool}

/-- If the request for the deque object is refused, copy returns NULL and the source is unchanged. (Missing: the request for the elements, see
`C84_deque_copy_violated`.) -/
theorem C84_deque_copy_partial (hty : ty ≠ 0) :
    On (false :: w) (isDeq e v b lo hi ws ∗ F) (copy T v) (fun r => ⌜r = 0⌝ ∗ isDeq e v b lo hi ws ∗ F) w := copy_refused hty

/-- If the request for the deque object is granted and the next one, for the elements, refused, copying a deque that has elements is undefined behaviour. -/
theorem C84_deque_copy_violated (hty : ty ≠ 0) (hws : ws ≠ []) : BadOn [true, false] (isDeq e v b lo hi ws ∗ F) (copy T v) := copy_starved hty hws

/-- If the request for the deque object is refused, create_from returns NULL and changes nothing. -/
theorem C84_deque_create_from_partial {values : Loc} {n : Nat} (hty : ty ≠ 0) (hv : values.1 ≠ 0) (hn : n ≠ 0) :
    On (false :: w) F (createFrom T ty values n) (fun r => ⌜r = 0⌝ ∗ F) w := createFrom_refused.resolve_right (by simp [hv, hn, hty])

/-- If only the first of its two requests is granted, create_from is undefined behaviour. -/
theorem C84_deque_create_from_violated {values : Loc} {n : Nat} (e : ElemSpec False (T ty) W) (hty : ty ≠ 0) (hv : values.1 ≠ 0) (hn : n ≠ 0) :
    BadOn [true, false] F (createFrom T ty values n) := createFrom_starved hty hv hn e

/-- If every request is refused and the elements of the source fit behind the place where the cleared target starts (`clearLo`, the middle of its storage if it was not
empty), assign leaves two usable deques: the source unchanged and the target empty (that it is empty is C25). -/
theorem C84_deque_assign_partial (hp : e.Plain) (hfit : ws2.length ≤ (if ws = [] then hi else lo + ws.length + hi - (lo + ws.length + hi) / 2)) :
    Exhausted (isDeq e v b lo hi ws ∗ isDeq e v2 b2 lo2 hi2 ws2) (assign T v v2)
      (fun r => ⌜r = v⌝ ∗ (∃ₛ lo' hi', isDeq e v b lo' hi' []) ∗ isDeq e v2 b2 lo2 hi2 ws2) := by
  intro s ho hs
  obtain ⟨a, s', h1, h2, h3⟩ := assign_starved_fits hp (show _ ≤ clearHi lo hi ws from hfit) s ho hs
  refine ⟨a, s', h1, h2, ?_⟩
  refine (show _ ⊢ₛ _ from ?_) _ h3
  xintro h
  xexists (clearLo lo hi ws), (clearHi lo hi ws)
  cancel

/-- If every request is refused, the source has more slots than the target and its elements do not fit there, assign is undefined behaviour. (With fewer slots it is
undefined behaviour with any allocator, C25.) -/
theorem C84_deque_assign_violated (hp : e.Plain) (hc : lo + ws.length + hi < lo2 + ws2.length + hi2)
    (hfit : (if ws = [] then hi else lo + ws.length + hi - (lo + ws.length + hi) / 2) < ws2.length) :
    Ruined (isDeq e v b lo hi ws ∗ isDeq e v2 b2 lo2 hi2 ws2) (assign T v v2) := assign_starved hp hc hfit

theorem deq_nf {nf nf' : Prop} {t : Ty V} {ws : List V} : isDeq (T := fun _ => plainOps t) (ty := ty) (plainSpec (nf := nf) t) v b lo hi ws =
    isDeq (T := fun _ => plainOps t) (ty := ty) (plainSpec (nf := nf') t) v b lo hi ws := by
  unfold isDeq
  rw [plain_nf (nf' := nf')]

/-- a deque of three `int`s made by the API, copied when only one more request is granted -/
example : ∃ (m : Mem Nat) (v b lo hi : Nat) (R : HProp Nat), (isDeq (T := fun _ => plainOps intTy) (ty := 1) (plainSpec (nf := False) intTy) v b lo hi [3, 1, 2] ∗ R) m.cells ∧
    copy (fun _ => plainOps intTy) v m = some (.error .ub) := by
  obtain ⟨m, v, b, lo, hi, _, hm⟩ := exists_deq (V := Nat) intTy 1 (by simp) [3, 1, 2] (by simp)
  rw [deq_nf (nf' := False)] at hm
  exact ⟨onceMore m, v, b, lo, hi, _, hm, C84_deque_copy_violated (ty := 1) (by simp) (by simp) _ (onceMore_follows m) hm⟩

/-- an array of `int`s, given to create_from when only one more request is granted -/
example : ∃ (m : Mem Nat), createFrom (fun _ => plainOps intTy) 1 (1, 1) 3 m = some (.error .ub) := by
  obtain ⟨m, _, hm⟩ := exists_array [3, 1, 2] (fun _ => 1)
  exact ⟨onceMore m, C84_deque_create_from_violated (plainSpec (nf := False) intTy) (by simp) (by simp) (by simp) _ (onceMore_follows m) hm⟩

/-- assigning a deque of four `int`s to a deque of two when every request is refused … -/
example : ∃ (m : Mem Nat) (v v2 : Nat), assign (fun _ => plainOps intTy) v v2 m = some (.error .ub) := by
  obtain ⟨m, v, b, v2, b2, ho, hm⟩ := exists_deqs (T := fun _ => plainOps intTy) (ty := 1) (plainSpec (nf := True) intTy) (plain_plain _) (by simp) 2 0 4 0
  rw [deq_nf (nf' := False), deq_nf (v := v2) (nf' := False)] at hm
  exact ⟨{ m with orc := fun _ => 0 }, v, v2, C84_deque_assign_violated (plain_plain _) (by simp) (by simp [List.replicate]) _ (by simp) hm⟩

/-- … and the other way round -/
example : ∃ (m m' : Mem Nat) (v v2 : Nat), assign (fun _ => plainOps intTy) v v2 m = some (.ok (v, m')) := by
  obtain ⟨m, v, b, v2, b2, ho, hm⟩ := exists_deqs (T := fun _ => plainOps intTy) (ty := 1) (plainSpec (nf := True) intTy) (plain_plain _) (by simp) 4 0 2 0
  rw [deq_nf (nf' := False), deq_nf (v := v2) (nf' := False)] at hm
  obtain ⟨a, m', h1, _, h2⟩ := C84_deque_assign_partial (plain_plain _) (by simp [List.replicate]) { m with orc := fun _ => 0 } (by simp) hm
  rw [hpure_sep_apply] at h2
  obtain ⟨rfl, h2⟩ := h2
  exact ⟨_, m', a, v2, h1⟩

end CC.Deq
