import Verif.Props.CAdapter
import Verif.Adapter.Time4
/-!
# C89: the time of adapters

Time is counted in memory accesses, including those of the client that looks at the elements the operations return.  The bounds are for whole lives of an adapter: its creation, a
history of operations in any order, and its destruction.
-/
namespace CC.Adapter
open CC CC.Tac CC.Algo
variable {V : Type} {E : Types V} {k : Kind} {ty comp n : Nat} {R : HProp V} {ρ : Loc → V} {F : Nat → V → V → Bool} {less : Nat → Nat}

/-- A stack with any backend, from creation to destruction: at most 82 accesses for each operation, and 44. -/
theorem C89_stack (hty : ty ≠ 0) (os : List (StackOp Loc)) (hargs : Args ρ R (stackArgs os)) :
    TripleC True R (life (create E ty (some k)) (runStackOp E) (destroy E) os)
      (fun r => ⌜∃ outs st, r = some outs ∧ Runs (StackStep ρ True) os [] outs st⌝ ∗ R) (82 * os.length + 44) := by
  refine PT.triple (Triple.post (C26_stack_lifo hty os hargs) fun r => ?_) (stack_life hty os hargs)
  refine ent_pure_left fun h => ent_pure_right ?_ (ent_refl _)
  exact h.resolve_left fun h => h.2 trivial

/-- A queue with a list or deque backend, from creation to destruction: at most 82 accesses for each operation, and 44.  With a list backend `size` counts the elements
(C86), so that it must not be among the operations.  (A queue with a vector backend cannot pop, C27.) -/
theorem C89_queue (hk : k ≠ .vector) (hty : ty ≠ 0) (os : List (QueueOp Loc)) (hargs : Args ρ R (queueArgs os)) (hsz : k = .list → .size ∉ os) :
    TripleC True R (life (create E ty (some k)) (runQueueOp E) (destroy E) os)
      (fun r => ⌜∃ outs st, r = some outs ∧ Runs (QueueStep ρ True) os [] outs st⌝ ∗ R) (82 * os.length + 44) := by
  refine PT.triple (Triple.post (C27_queue_fifo_partial hk hty os hargs) fun r => ?_) (queue_life hk hty os hargs hsz)
  refine ent_pure_left fun h => ent_pure_right ?_ (ent_refl _)
  exact h.resolve_left fun h => h.2 trivial

/-- A priority queue (with a vector or deque backend, C28), from creation to destruction: logarithmic time for each operation: a history of fewer than `2 ^ (n + 1)` operations takes
at most `89 + 10 * n` accesses for each operation, and 44. -/
theorem C89_priority_queue (hk : k ≠ .list) (hty : ty ≠ 0) (hsw : StrictWeak (F (if comp ≠ 0 then comp else less ty))) (os : List (PqOp Loc))
    (hargs : Args ρ R (pqArgs os)) (hn : os.length < 2 ^ (n + 1)) :
    TripleC True R (life (pqCreate E less ty (some k) comp) (runPqOp E F) (destroy E) os)
      (fun r => ⌜∃ outs st, r = some outs ∧ Runs (PqStep (F (if comp ≠ 0 then comp else less ty)) ρ True) os [] outs st⌝ ∗ R) ((89 + 10 * n) * os.length + 44) :=
  PT.triple (C28_priority_queue hk hty hsw os hargs) (pq_life hk hty hsw os hargs hn)

/-- the same with the logarithm -/
theorem C89_priority_queue_log (hk : k ≠ .list) (hty : ty ≠ 0) (hsw : StrictWeak (F (if comp ≠ 0 then comp else less ty))) (os : List (PqOp Loc))
    (hargs : Args ρ R (pqArgs os)) :
    TripleC True R (life (pqCreate E less ty (some k) comp) (runPqOp E F) (destroy E) os)
      (fun r => ⌜∃ outs st, r = some outs ∧ Runs (PqStep (F (if comp ≠ 0 then comp else less ty)) ρ True) os [] outs st⌝ ∗ R) ((89 + 10 * Nat.log2 os.length) * os.length + 44) :=
  C89_priority_queue hk hty hsw os hargs Nat.lt_log2_self

/-- An instance: a thousand pushes and pops of a stack of numbers with a vector backend, in the memory of some client; the priority queue sorts a thousand equal elements. -/
example : ∃ (m m' m'' : Mem Nat) (l : Loc) (os os' : List (Out Nat)),
    life (create (fun _ => Vec.intTy) 1 (some .vector)) (runStackOp fun _ => Vec.intTy) (destroy fun _ => Vec.intTy)
      (List.replicate 1000 (.push l) ++ List.replicate 1000 .pop) m = some (.ok (some os, m')) ∧ m'.clk ≤ m.clk + 164044 ∧
    life (pqCreate (fun _ => Vec.intTy) (fun _ => 1) 1 (some .deque) 0) (runPqOp (fun _ => Vec.intTy) fun _ a b => decide (a < b)) (destroy fun _ => Vec.intTy)
      (List.replicate 1000 (.push l) ++ List.replicate 1000 .pop) m = some (.ok (some os', m'')) ∧ m''.clk ≤ m.clk + 378044 := by
  obtain ⟨m, c, d, l, ho, hm⟩ := exists_ranges (V := Nat) [] [] 7
  simp only [seg_nil, emp_sep] at hm
  have hm' : (pts l (.obj (some 7)) ∗ emp) m.cells := by rw [sep_emp]; exact hm
  have h1 := C89_stack (E := fun _ => Vec.intTy) (k := .vector) (ty := 1) (R := pts l (.obj (some 7))) (ρ := fun _ => 7) (by simp)
    (List.replicate 1000 (.push l) ++ List.replicate 1000 .pop) (by
      intro l' hl'
      simp only [stackArgs, List.mem_flatMap, List.mem_append, List.mem_replicate] at hl'
      obtain ⟨o, ho, hl'⟩ := hl'
      rcases ho with ⟨_, rfl⟩ | ⟨_, rfl⟩
      · simp only [List.mem_singleton] at hl'
        subst hl'
        exact ⟨pts_ne_zero hm', emp, by rw [sep_emp]⟩
      · simp at hl')
  have h2 := C89_priority_queue (E := fun _ => Vec.intTy) (k := .deque) (ty := 1) (comp := 0) (less := fun _ => 1) (F := fun _ a b => decide (a < b)) (n := 10)
    (R := pts l (.obj (some 7))) (ρ := fun _ => 7) (by simp) (by simp) strictWeak_nat
    (List.replicate 1000 (.push l) ++ List.replicate 1000 .pop) (by
      intro l' hl'
      simp only [pqArgs, List.mem_flatMap, List.mem_append, List.mem_replicate] at hl'
      obtain ⟨o, ho, hl'⟩ := hl'
      rcases ho with ⟨_, rfl⟩ | ⟨_, rfl⟩
      · simp only [List.mem_singleton] at hl'
        subst hl'
        exact ⟨pts_ne_zero hm', emp, by rw [sep_emp]⟩
      · simp at hl') (by rw [List.length_append, List.length_replicate, List.length_replicate]; omega)
  obtain ⟨r1, m1, e1, _, c1, q1⟩ := h1 m emp (fun _ => ho) hm'
  obtain ⟨r2, m2, e2, _, c2, q2⟩ := h2 m emp (fun _ => ho) hm'
  rw [sep_assoc] at q1 q2
  obtain ⟨os, _, rfl, _⟩ := (hpure_sep_apply.1 q1).1
  obtain ⟨os', _, rfl, _⟩ := (hpure_sep_apply.1 q2).1
  refine ⟨m, m1, m2, l, os, os', e1, Nat.le_trans c1 ?_, e2, Nat.le_trans c2 ?_⟩
  · rw [List.length_append, List.length_replicate, List.length_replicate]; omega
  · rw [List.length_append, List.length_replicate, List.length_replicate]; omega

end CC.Adapter
