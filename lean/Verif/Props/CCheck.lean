import Verif.Props.CDeque
/-!
# Property C93: the state check of deques never fails

c_deque.c can be compiled with ENABLE_CHECK_DEQUE_STATE; then `__check_deque_state` (otherwise constantly true, see Verif/Deq/Model.lean) compares the four pointers of the deque, and an assertion on it
stands behind every change of these pointers: at the end of `__insert_aux`, `__reallocate_and_move`, `c_deque_shrink_to_fit`, `c_deque_clear`, `c_deque_erase`, `c_deque_erase_range`, the four push and pop
functions, and `c_deque_resize_with_value`.
-/
namespace CC.Deq
open CC.Tac
open CC.Vec (arg intTy)
variable {V W : Type} {nf : Prop} {T : Nat → Ops V} {ty : Nat} {e : ElemSpec nf (T ty) W} {v b lo hi : Nat} {ws : List W} {R : HProp V}

/-- `__check_deque_state` with ENABLE_CHECK_DEQUE_STATE, c_deque.c:48-59 -/
def checkState (v : Addr) : M V Bool :=
  if v = 0 then pure false else do
  let eos ← ldP (v, 4)
  let finish ← ldP (v, 3)
  if !pge eos finish then pure false else do
  let finish ← ldP (v, 3)
  let start ← ldP (v, 2)
  if !pge finish start then pure false else do
  let start ← ldP (v, 2)
  let sos ← ldP (v, 1)
  pure (pge start sos)

/-- `assert(__check_deque_state(deque))` behind a call -/
def checked {α : Type} (v : Addr) (m : M V α) : M V α := do
  let r ← m
  let ok ← checkState v
  cassert ok
  pure r

/-- The check is exactly about the order of the pointers, whatever they are. -/
theorem C93_check_exact {i j k n : Nat} (hv : v ≠ 0) :
    Triple (V := V) nf (pts (v, 1) (.ptr b i) ∗ pts (v, 2) (.ptr b j) ∗ pts (v, 3) (.ptr b k) ∗ pts (v, 4) (.ptr b n)) (checkState v)
      (fun r => ⌜r = true ↔ i ≤ j ∧ j ≤ k ∧ k ≤ n⌝ ∗ pts (v, 1) (.ptr b i) ∗ pts (v, 2) (.ptr b j) ∗ pts (v, 3) (.ptr b k) ∗ pts (v, 4) (.ptr b n)) := by
  unfold checkState
  rw [if_neg hv]
  steps
  apply Triple.ite
  · intro h
    simp only [pge] at h
    apply Triple.ret
    refine ent_pure_right ?_ (by cancel)
    simp at h
    simp only [Bool.false_eq_true, false_iff]
    omega
  · intro h
    simp only [pge] at h
    steps
    apply Triple.ite
    · intro h2
      simp only [pge] at h2
      apply Triple.ret
      refine ent_pure_right ?_ (by cancel)
      simp at h h2
      simp only [Bool.false_eq_true, false_iff]
      omega
    · intro h2
      simp only [pge] at h2
      steps
      apply Triple.ret
      refine ent_pure_right ?_ (by cancel)
      simp [pge] at h h2 ⊢
      omega

/-- It holds for every deque. -/
theorem C93_check : Triple nf (isDeq e v b lo hi ws) (checkState v) (fun r => ⌜r = true⌝ ∗ isDeq e v b lo hi ws) := by
  apply lift
  apply Triple.fact (p := v ≠ 0) (fun h hh => ?_) fun hv => ?_
  · unfold dhdr at hh; exact pts_ne_zero hh
  unfold dhdr
  rw [← bind_pure (checkState v)]
  call (C93_check_exact (nf := nf) (b := b) (i := 1) (j := 1 + lo) (k := 1 + lo + ws.length) (n := 1 + lo + ws.length + hi) hv)
  intro r
  xintro h
  apply Triple.ret
  refine ent_pure_right (h.2 (by omega)) ?_
  cancel

theorem check_cps {α : Type} {F : HProp V} {m : M V α} {Q : α → HProp V} (h : Triple nf (isDeq e v b lo hi ws ∗ F) m Q) :
    Triple nf (isDeq e v b lo hi ws ∗ F) (do let ok ← checkState v; cassert ok; m) Q := by
  call (C93_check (e := e))
  intro r
  xsub
  unfold cassert
  simp only [if_true, pure_bind]
  exact h

/-- `__reallocate_and_move` with its assertion (it stands on the path without failure) -/
theorem C93_reallocate {k : Nat} (hp : e.Plain ∨ ws = []) :
    Triple nf (isDeq e v b lo hi ws) (checked v (reallocateAndMove T v k))
      (fun failed => if failed then ⌜¬ nf⌝ ∗ isDeq e v b lo hi ws else ∃ₛ b' lo' hi', isDeq e v b' lo' hi' ws) := by
  unfold checked
  refine Triple.bind (realloc_spec hp) fun r => ?_
  cases r with
  | true =>
    simp only [if_true]
    apply Triple.pure_left; intro hn
    rw [← sep_emp (isDeq e v b lo hi ws)]
    refine check_cps (Triple.ret ?_)
    refine ent_pure_right hn ?_
    cancel
  | false =>
    simp only [Bool.false_eq_true, if_false]
    apply Triple.ex_left; intro b'
    apply Triple.pure_left; intro hb
    generalize (Vec.newCap (lo + ws.length + hi) k ws.length - ws.length) / 2 = lo'
    generalize (Vec.newCap (lo + ws.length + hi) k ws.length - ws.length - lo') = hi'
    rw [← sep_emp (isDeq e v b' lo' hi' ws)]
    refine check_cps (Triple.ret ?_)
    rw [sep_emp]
    exact ent_ex_right b' (ent_ex_right lo' (ent_ex_right hi' (ent_refl _)))

/-- `__insert_aux` with the assertions at its ends -/
theorem C93_insert {X Y : List W} {n : Nat} {value : Loc} {w : W} (hroom : n ≤ lo + hi) :
    Triple nf (isDeq e v b lo hi (X ++ Y) ∗ arg e value w) (checked v (insertAux T v (b, 1 + lo + X.length) n value))
      (fun r => ∃ₛ lo' hi', ⌜r = (b, 1 + lo' + X.length)⌝ ∗ isDeq e v b lo' hi' (X ++ List.replicate n w ++ Y) ∗ arg e value w) := by
  unfold checked
  refine Triple.bind (insertAux_spec hroom) fun r => ?_
  xintro lo' hi' ⟨h1, h2, rfl⟩
  refine check_cps (Triple.ret ?_)
  exact ent_ex_right lo' (ent_ex_right hi' (ent_pure_right rfl (ent_refl _)))

/-- a client's operations, with the assertion behind every one of them -/
def runChecked (T : Nat → Ops V) (v : Addr) : List Op → M V Unit
  | [] => pure ()
  | op :: ops => do
    checked v (runOp T v op)
    runChecked T v ops

/-- In every history of valid operations (all public operations that change a deque: push, pop, insert, insert_n, erase, erase_range, resize, clear, shrink_to_fit) the assertion behind every operation holds: the
program with the assertions does what the program without them does. -/
theorem C93_history {ops : List Op} {ρ : Loc → W} (hv : ValidOps e R ρ ops ⟨lo, hi, ws⟩) :
    Triple nf (isDeq e v b lo hi ws ∗ R) (runChecked T v ops)
      (fun _ => ∃ₛ b' lo' hi' ws', ⌜Steps e.dflt ρ nf ops ⟨lo, hi, ws⟩ ⟨lo', hi', ws'⟩⌝ ∗ isDeq e v b' lo' hi' ws' ∗ R) := by
  induction ops generalizing b lo hi ws with
  | nil =>
    rw [runChecked]
    apply Triple.ret
    xexists b, lo, hi, ws
    cancel
    exact Steps.nil _
  | cons op ops ih =>
    rw [runChecked, checked]
    simp only [bind_assoc, pure_bind]
    refine Triple.bind (runOp_spec hv.1) ?_
    intro _
    xintro b' lo' hi' ws' h
    refine check_cps ?_
    refine Triple.post (ih (hv.2 _ h)) ?_
    intro _
    xintro b2 lo2 hi2 ws2 h2
    xexists b2, lo2, hi2, ws2
    cancel
    exact Steps.cons h h2

/-- A deque whose pointers are in the wrong order is found by the check (so the theorems above say something). -/
example : Triple (V := Nat) True (pts (7, 1) (.ptr 3 1) ∗ pts (7, 2) (.ptr 3 5) ∗ pts (7, 3) (.ptr 3 4) ∗ pts (7, 4) (.ptr 3 9)) (checkState 7)
    (fun r => ⌜r = false⌝ ∗ pts (7, 1) (.ptr 3 1) ∗ pts (7, 2) (.ptr 3 5) ∗ pts (7, 3) (.ptr 3 4) ∗ pts (7, 4) (.ptr 3 9)) := by
  refine (C93_check_exact (by omega)).post fun r => ?_
  refine ent_pure_left fun h => ent_pure_right ?_ (ent_refl _)
  cases r with
  | false => rfl
  | true => simp at h

/-- a memory with a deque of three elements and two free slots -/
example : ∃ (m : Mem Nat) (v b v2 b2 : Addr),
    (isDeq (T := fun _ => plainOps intTy) (ty := 1) (plainSpec (nf := True) intTy) v b 0 2 (List.replicate 3 intTy.dflt) ∗
      isDeq (T := fun _ => plainOps intTy) (ty := 1) (plainSpec (nf := True) intTy) v2 b2 0 0 (List.replicate 0 intTy.dflt)) m.cells := by
  obtain ⟨m, v, b, v2, b2, _, hm⟩ := exists_deqs (T := fun _ => plainOps intTy) (ty := 1) (plainSpec (nf := True) intTy) (plain_plain _) (by simp) 3 2 0 0
  exact ⟨m, v, b, v2, b2, hm⟩

end CC.Deq
