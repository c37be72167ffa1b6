import Verif.Adapter.Mixed
import Verif.Core.Bad
/-!
# Properties C26–C29: c_stack, c_queue, c_priority_queue

Specifications: Verif/Spec/Adapter.lean (`StackStep`, `QueueStep`, `PqStep`, `Runs`).  A client program `life` creates an adapter, applies any history of operations,
looking at everything the operations return, and destroys it.  The theorems hold for every memory containing the client's own data `R` (in which the references it pushes
designate objects); as in every `Triple` the program has no undefined behaviour and terminates, and it leaves the memory exactly as it found it (`R` again).
-/
namespace CC.Adapter
open CC CC.Tac CC.Algo
variable {V : Type} {nf : Prop} {E : Types V} {k : Kind} {a ty : Nat} {ws : List V} {R : HProp V} {ρ : Loc → V}

/-! ## C26 -/

/-- From creation to destruction a stack is a LIFO stack, with every backend. -/
theorem C26_stack_lifo (hty : ty ≠ 0) (os : List (StackOp Loc)) (hargs : Args ρ R (stackArgs os)) :
    Triple nf R (life (create E ty (some k)) (runStackOp E) (destroy E) os)
      (fun r => ⌜(r = none ∧ ¬ nf) ∨ ∃ outs st, r = some outs ∧ Runs (StackStep ρ nf) os [] outs st⌝ ∗ R) := by
  refine life_spec (ok := fun o => ∀ l, o = .push l → l.1 ≠ 0 ∧ ∃ R', R = (pts l (.obj (some (ρ l))) ∗ R'))
    (I := fun a st => isAd E nf k a ty st.reverse ∗ R) (C0 := fun a => isAd E nf k a ty []) (create_spec hty) (fun a => ent_refl _)
    (fun a o s ho => stackOp_spec ho) (fun a s => ?_) ?_
  · call destroy_spec
    intro _
    cancel
  · rintro o ho l rfl
    exact hargs l (List.mem_flatMap.2 ⟨_, ho, List.mem_singleton.2 rfl⟩)

/-- `c_stack_swap` (and `c_queue_swap`) exchanges the contents of two stacks with backends of the same kind. -/
theorem C26_swap {a2 ty2 : Nat} {ws2 : List V} :
    Triple nf (isAd E nf k a ty ws ∗ isAd E nf k a2 ty2 ws2) (swap E a a2) (fun _ => isAd E nf k a ty2 ws2 ∗ isAd E nf k a2 ty ws) := swap_spec

/-- Non-vacuity: a client's memory and a history of pushes of its object -/
example : ∃ (R : HProp Nat) (l : Loc), Args (fun _ => 7) R (stackArgs [.push l, .push l, .pop, .top, .empty]) ∧ ∃ m : Mem Nat, (∀ t, m.orc t ≠ 0) ∧ R m.cells := by
  obtain ⟨m, c, d, l, ho, hm⟩ := exists_ranges (V := Nat) [] [] 7
  refine ⟨pts l (.obj (some 7)), l, ?_, m, ho, ?_⟩
  · intro l' hl'
    simp only [stackArgs, List.flatMap_cons, List.flatMap_nil, List.append_nil, List.cons_append, List.nil_append, List.mem_cons, List.not_mem_nil, or_false, or_self] at hl'
    subst hl'
    simp only [seg_nil, emp_sep] at hm
    refine ⟨?_, emp, by rw [sep_emp]⟩
    have hm' : (pts l' (.obj (some 7)) ∗ emp) m.cells := by rw [sep_emp]; exact hm
    exact pts_ne_zero hm'
  · simpa only [seg_nil, emp_sep] using hm

/-! ## C27 -/

/-- From creation to destruction a queue with a list or deque backend is a FIFO queue.  Missing: the vector backend, see `C27_vector_violated`. -/
theorem C27_queue_fifo_partial (hk : k ≠ .vector) (hty : ty ≠ 0) (os : List (QueueOp Loc)) (hargs : Args ρ R (queueArgs os)) :
    Triple nf R (life (create E ty (some k)) (runQueueOp E) (destroy E) os)
      (fun r => ⌜(r = none ∧ ¬ nf) ∨ ∃ outs st, r = some outs ∧ Runs (QueueStep ρ nf) os [] outs st⌝ ∗ R) := by
  refine life_spec (ok := fun o => ∀ l, o = .push l → l.1 ≠ 0 ∧ ∃ R', R = (pts l (.obj (some (ρ l))) ∗ R'))
    (I := fun a st => isAd E nf k a ty st ∗ R) (C0 := fun a => isAd E nf k a ty []) (create_spec hty) (fun a => ent_refl _)
    (fun a o s ho => queueOp_spec (Or.inl hk) ho) (fun a s => ?_) ?_
  · call destroy_spec
    intro _
    cancel
  · rintro o ho l rfl
    exact hargs l (List.mem_flatMap.2 ⟨_, ho, List.mem_singleton.2 rfl⟩)

/-- `c_queue_pop` on a queue with a vector backend (which `c_vector_create_backend` offers) calls a NULL function pointer, even on an empty queue:
whatever was pushed before, the program runs into undefined behaviour. -/
theorem C27_vector_violated (hty : ty ≠ 0) (os : List (QueueOp Loc)) (hargs : Args ρ R (queueArgs os)) (hnp : .pop ∉ os) :
    Bad R (do
      let a ← create E ty (some .vector)
      let _ ← runAll (runQueueOp E a) os
      popF E a) := by
  refine Bad.pre (P' := emp ∗ R) (by cancel) ?_
  refine Bad.bind (create_spec (nf := True) (E := E) (k := .vector) hty) ?_
  intro a
  rw [sep_assoc]
  apply Bad.pure_left
  intro ha
  rw [if_neg (fun h => ha h trivial)]
  have hrun : Triple True (isAd E True .vector a ty [] ∗ R) (runAll (runQueueOp E a) os)
      (fun rs => ∃ₛ st', ⌜Runs (QueueStep ρ True) os [] rs st'⌝ ∗ isAd E True .vector a ty st' ∗ R) := by
    refine runAll_spec (ok := fun o => o ≠ .pop ∧ ∀ l, o = .push l → l.1 ≠ 0 ∧ ∃ R', R = (pts l (.obj (some (ρ l))) ∗ R'))
      (I := fun st => isAd E True .vector a ty st ∗ R) ?_ os [] ?_
    · rintro o s ⟨h1, h2⟩
      exact queueOp_spec (Or.inr h1) h2
    · intro o ho
      refine ⟨fun h => hnp (h ▸ ho), ?_⟩
      rintro l rfl
      exact hargs l (List.mem_flatMap.2 ⟨_, ho, List.mem_singleton.2 rfl⟩)
  refine Bad.pre (P' := (isAd E True .vector a ty [] ∗ R) ∗ emp) (by cancel) ?_
  refine Bad.bind hrun ?_
  intro rs
  apply Bad.ex
  intro st
  rw [sep_assoc]
  apply Bad.pure_left
  intro _
  refine Bad.pre ?_ (popF_bad (a := a) (ty := ty) (ws := st) (R := R))
  cancel

/-- Non-vacuity: as for C26, e.g. with `os = [.push l, .front, .size]` -/
example : ∃ (R : HProp Nat) (l : Loc), Args (fun _ => 7) R (queueArgs [.push l, .front, .size]) ∧ QueueOp.pop ∉ [QueueOp.push l, .front, .size] ∧
    ∃ m : Mem Nat, (∀ t, m.orc t ≠ 0) ∧ R m.cells := by
  obtain ⟨m, c, d, l, ho, hm⟩ := exists_ranges (V := Nat) [] [] 7
  simp only [seg_nil, emp_sep] at hm
  refine ⟨pts l (.obj (some 7)), l, ?_, by simp, m, ho, hm⟩
  intro l' hl'
  simp only [queueArgs, List.flatMap_cons, List.flatMap_nil, List.append_nil, List.mem_cons, List.not_mem_nil, or_false] at hl'
  subst hl'
  refine ⟨?_, emp, by rw [sep_emp]⟩
  have hm' : (pts l' (.obj (some 7)) ∗ emp) m.cells := by rw [sep_emp]; exact hm
  exact pts_ne_zero hm'

/-! ## C28 -/

variable {F : Nat → V → V → Bool} {less : Nat → Nat} {comp : Nat}

/-- From creation to destruction a priority queue (with a random access backend, vector or deque) is a priority queue for the comparison it was created with, or for the
comparison of its element type if none was given.  Memory does not run out (for that, and for the iterator objects `push` and `pop` allocate, see C83). -/
theorem C28_priority_queue (hk : k ≠ .list) (hty : ty ≠ 0) (hsw : StrictWeak (F (if comp ≠ 0 then comp else less ty))) (os : List (PqOp Loc))
    (hargs : Args ρ R (pqArgs os)) :
    Triple True R (life (pqCreate E less ty (some k) comp) (runPqOp E F) (destroy E) os)
      (fun r => ⌜∃ outs st, r = some outs ∧ Runs (PqStep (F (if comp ≠ 0 then comp else less ty)) ρ True) os [] outs st⌝ ∗ R) := by
  generalize hc : (if comp ≠ 0 then comp else less ty) = c at hsw ⊢
  refine Triple.post (life_spec (s0 := []) (ok := fun o => ∀ l, o = .push l → l.1 ≠ 0 ∧ ∃ R', R = (pts l (.obj (some (ρ l))) ∗ R'))
    (I := fun a st => ⌜IsHeap (F c) st⌝ ∗ isPq E True k a ty c st ∗ R) (C0 := fun a => isPq E True k a ty c []) ?_ (fun a => ?_)
    (fun a o s ho => pqOp_spec hk hsw ho) (fun a s => ?_) ?_) ?_
  · have := pqCreate_spec (nf := True) (E := E) (k := k) (comp := comp) (less := less) hty
    rw [hc] at this
    exact this
  · refine ent_pure_right ?_ (ent_refl _)
    intro j a b h0 ha hb
    simp at ha
  · apply Triple.pure_left
    intro _
    call pqDestroy_spec
    intro _
    cancel
  · rintro o ho l rfl
    exact hargs l (List.mem_flatMap.2 ⟨_, ho, List.mem_singleton.2 rfl⟩)
  · intro r
    refine ent_pure_left fun h => ent_pure_right ?_ (ent_refl _)
    rcases h with h | h
    · exact absurd trivial h.2
    · exact h

/-- Emptying a priority queue yields its elements in descending order. -/
theorem C28_drain {lt : V → V → Bool} {st st' : List V} {outs : List (Out V)} (hok : PqOk lt st)
    (h : Runs (PqStep lt ρ nf) (List.flatten (List.replicate st.length [PqOp.top, PqOp.pop])) st outs st') :
    st' = [] ∧ ∃ vs : List V, outs = List.flatMap (fun v => [Out.elem (some v), Out.done]) vs ∧ vs.Perm st ∧ vs.Pairwise fun a b => lt a b = false :=
  pq_drain rfl hok h

/-- Non-vacuity: a strict weak order and a client's memory -/
example : StrictWeak (fun a b : Nat => decide (a < b)) ∧
    ∃ (R : HProp Nat) (l : Loc), Args (fun _ => 7) R (pqArgs [.push l, .push l, .top, .pop]) ∧ ∃ m : Mem Nat, (∀ t, m.orc t ≠ 0) ∧ R m.cells := by
  refine ⟨strictWeak_nat, ?_⟩
  obtain ⟨m, c, d, l, ho, hm⟩ := exists_ranges (V := Nat) [] [] 7
  simp only [seg_nil, emp_sep] at hm
  refine ⟨pts l (.obj (some 7)), l, ?_, m, ho, hm⟩
  intro l' hl'
  simp only [pqArgs, List.flatMap_cons, List.flatMap_nil, List.append_nil, List.cons_append, List.nil_append, List.mem_cons, List.not_mem_nil, or_false, or_self] at hl'
  subst hl'
  refine ⟨?_, emp, by rw [sep_emp]⟩
  have hm' : (pts l' (.obj (some 7)) ∗ emp) m.cells := by rw [sep_emp]; exact hm
  exact pts_ne_zero hm'

/-! ## C29 -/

/-- What `c_priority_queue_swap` does: the contents are exchanged, the comparisons are not.  If the two queues have the same comparison this exchanges the queues. -/
theorem C29_swap_partial {a2 ty2 comp2 : Nat} {ws2 : List V} :
    Triple nf (isPq E nf k a ty comp ws ∗ isPq E nf k a2 ty2 comp2 ws2) (swap E a a2)
      (fun _ => isPq E nf k a ty2 comp ws2 ∗ isPq E nf k a2 ty comp2 ws) := pqSwap_spec

/-- If the comparisons differ the queues are broken: from a queue of 5 and 3 with "greatest first" (comparison 1), swapped into a queue created with
"least first" (comparison 2), the client gets, after pushing 4, the top 4: neither a greatest nor a least element. -/
theorem C29_swap_violated {E : Types Nat} {F : Nat → Nat → Nat → Bool} {k : Kind} (hk : k ≠ .list) (hty : ty ≠ 0)
    (hF1 : F 1 = fun a b => decide (a < b)) (hF2 : F 2 = fun a b => decide (b < a)) {l5 l3 l4 : Loc} :
    Triple True (pts l5 (.obj (some 5)) ∗ pts l3 (.obj (some 3)) ∗ pts l4 (.obj (some 4))) (do
        let q1 ← pqCreate E less ty (some k) 1
        let q2 ← pqCreate E less ty (some k) 2
        pqPush E F q1 l5
        pqPush E F q1 l3
        swap E q1 q2
        pqPush E F q2 l4
        let r ← front E q2
        let o ← look r
        pure (q1, q2, o))
      (fun r => ⌜r.2.2 = .elem (some 4)⌝ ∗ isPq E True k r.1 ty 1 [] ∗ isPq E True k r.2.1 ty 2 [4, 3, 5] ∗
        pts l5 (.obj (some 5)) ∗ pts l3 (.obj (some 3)) ∗ pts l4 (.obj (some 4))) := by
  refine Triple.fact (p := l5.1 ≠ 0 ∧ l3.1 ≠ 0 ∧ l4.1 ≠ 0) (fun h hh => ⟨pts_ne_zero hh, ?_, ?_⟩) ?_
  · rw [sep_left_comm] at hh; exact pts_ne_zero hh
  · rw [sep_comm, sep_assoc, sep_left_comm] at hh; exact pts_ne_zero hh
  rintro ⟨h5, h3, h4⟩
  call (pqCreate_spec (nf := True) (E := E) (k := k) (comp := 1) (less := less) hty)
  intro q1
  xintro hq1
  rw [if_neg (fun h => hq1 h trivial), if_pos (by decide)]
  call (pqCreate_spec (nf := True) (E := E) (k := k) (comp := 2) (less := less) hty)
  intro q2
  xintro hq2
  rw [if_neg (fun h => hq2 h trivial), if_pos (by decide)]
  have hsw : StrictWeak (F 1) := by rw [hF1]; exact strictWeak_nat
  have hempty : IsHeap (F 1) [] := by intro j a b h0 ha hb; simp at ha
  call (pqPush_spec (nf := True) (E := E) (F := F) (k := k) (a := q1) (ty := ty) (comp := 1) (ws := []) (v := 5) hk hsw h5 hempty)
  intro _
  xintro ws1 h1
  have hw1 : ws1 = [5] := List.perm_singleton.1 (h1.1.resolve_right (fun h => h.1 trivial))
  subst hw1
  call (pqPush_spec (nf := True) (E := E) (F := F) (k := k) (a := q1) (ty := ty) (comp := 1) (ws := [5]) (v := 3) hk hsw h3 h1.2)
  intro _
  xintro ws2 h2
  have hw2 : ws2 = [5, 3] := by
    obtain ⟨hp, hh⟩ := h2
    have hp := hp.resolve_right (fun h => h.1 trivial)
    have hl := hp.length_eq
    match ws2, hl with
    | [x, y], _ =>
      have hx : x ∈ [3, 5] := hp.mem_iff.1 (by simp)
      have hy : y ∈ [3, 5] := hp.mem_iff.1 (by simp)
      have h35 : 3 ∈ [x, y] := hp.mem_iff.2 (by simp)
      have h53 : 5 ∈ [x, y] := hp.mem_iff.2 (by simp)
      have := hh 1 x y (by omega) rfl rfl
      rw [hF1] at this
      simp only [List.mem_cons, List.not_mem_nil, or_false, decide_eq_false_iff_not] at hx hy h35 h53 this
      obtain ⟨rfl, rfl⟩ : x = 5 ∧ y = 3 := by omega
      rfl
  subst hw2
  call (pqSwap_spec (nf := True) (E := E) (k := k) (a := q1) (a2 := q2) (ty := ty) (ty2 := ty) (comp := 1) (comp2 := 2) (ws := [5, 3]) (ws2 := []))
  intro _
  call (pqPush_three (E := E) (F := F) (k := k) (a := q2) (ty := ty) (comp := 2) (x := 5) (y := 3) (z := 4) hk h4 (by rw [hF2]; rfl))
  intro _
  call (pqTop_spec (nf := True) (E := E) (k := k) (a := q2) (ty := ty) (comp := 2) (ws := [4, 3, 5]))
  intro r
  call (look_spec (nf := True) (r := r))
  intro o
  xintro ho
  apply Triple.ret
  cancel

/-- Non-vacuity: a memory with the three objects -/
example : ∃ (m : Mem Nat) (l5 l3 l4 : Loc), (∀ t, m.orc t ≠ 0) ∧ (pts l5 (.obj (some 5)) ∗ pts l3 (.obj (some 3)) ∗ pts l4 (.obj (some 4))) m.cells := by
  obtain ⟨m, c, d, l, ho, hm⟩ := exists_ranges (V := Nat) [5] [3] 4
  simp only [seg_one] at hm
  exact ⟨m, _, _, _, ho, hm⟩

/-- Priority queues need a random access backend: the first push on a queue with a list backend (which `c_priority_queue_create` accepts) stops at an assertion. -/
theorem C28_list_backend_stops (hty : ty ≠ 0) {l : Loc} {v : V} (hl : l.1 ≠ 0) :
    Stops (pts l (.obj (some v)) ∗ R) (do
      let a ← pqCreate E less ty (some .list) comp
      pqPush E F a l) := by
  have h := Stops.bind (F := pts l (.obj (some v)) ∗ R) (K := fun a => pqPush E F a l) (pqCreate_spec (nf := True) (E := E) (k := .list) (comp := comp) (less := less) hty) ?_
  · rw [emp_sep] at h
    exact h
  intro a
  rw [sep_assoc]
  apply Stops.pure_left
  intro ha
  rw [if_neg (fun h => ha h trivial), ← sep_assoc]
  exact pqPush_list_stops hl

/-! ## C56 -/

/-- The part that holds: adapters with backends of the same kind are exchanged.  Missing: different kinds, see `C56_swap_violated`. -/
theorem C56_swap_partial (hty : ty ≠ 0) {ty2 : Nat} (hty2 : ty2 ≠ 0) (os os2 : List (StackOp Loc)) (hargs : Args ρ R (stackArgs os)) (hargs2 : Args ρ R (stackArgs os2)) :
    Triple True R (do
        let a ← create E ty (some k)
        let a2 ← create E ty2 (some k)
        let _ ← runAll (runStackOp E a) os
        let _ ← runAll (runStackOp E a2) os2
        swap E a a2
        let x ← size E a
        let r ← back E a
        let o ← look r
        let y ← size E a2
        let r2 ← back E a2
        let o2 ← look r2
        destroy E a
        destroy E a2
        pure (x, o, y, o2))
      (fun r => ∃ₛ outs, ∃ₛ outs2, ∃ₛ st, ∃ₛ st2, ⌜Runs (StackStep ρ True) os [] outs st ∧ Runs (StackStep ρ True) os2 [] outs2 st2 ∧
        r = (st2.length, .elem st2.head?, st.length, .elem st.head?)⌝ ∗ R) := by
  have run : ∀ (a ty : Nat) (os : List (StackOp Loc)), Args ρ R (stackArgs os) → Triple True (isAd E True k a ty [] ∗ R) (runAll (runStackOp E a) os)
      (fun rs => ∃ₛ st, ⌜Runs (StackStep ρ True) os [] rs st⌝ ∗ isAd E True k a ty st.reverse ∗ R) := by
    intro a ty os hargs
    refine runAll_spec (ok := fun o => ∀ l, o = .push l → l.1 ≠ 0 ∧ ∃ R', R = (pts l (.obj (some (ρ l))) ∗ R'))
      (I := fun st => isAd E True k a ty st.reverse ∗ R) (fun o s ho => stackOp_spec ho) os [] ?_
    rintro o ho l rfl
    exact hargs l (List.mem_flatMap.2 ⟨_, ho, List.mem_singleton.2 rfl⟩)
  call (create_spec (nf := True) (E := E) (k := k) hty)
  intro a
  xintro ha
  rw [if_neg (fun h => ha h trivial)]
  call (create_spec (nf := True) (E := E) (k := k) hty2)
  intro a2
  xintro ha2
  rw [if_neg (fun h => ha2 h trivial)]
  call (run a ty os hargs)
  intro outs
  xintro st h1
  call (run a2 ty2 os2 hargs2)
  intro outs2
  xintro st2 h2
  call (swap_spec (nf := True) (E := E) (k := k) (a := a) (a2 := a2) (ty := ty) (ty2 := ty2) (ws := st.reverse) (ws2 := st2.reverse))
  intro _
  call (size_spec (nf := True) (E := E) (k := k) (a := a) (ty := ty2) (ws := st2.reverse))
  intro x
  xintro hx
  call (back_spec (nf := True) (E := E) (k := k) (a := a) (ty := ty2) (ws := st2.reverse))
  intro r
  call (look_spec (nf := True) (r := r))
  intro o
  xintro ho
  call (size_spec (nf := True) (E := E) (k := k) (a := a2) (ty := ty) (ws := st.reverse))
  intro y
  xintro hy
  call (back_spec (nf := True) (E := E) (k := k) (a := a2) (ty := ty) (ws := st.reverse))
  intro r2
  call (look_spec (nf := True) (r := r2))
  intro o2
  xintro ho2
  call (destroy_spec (nf := True) (E := E) (k := k) (a := a) (ty := ty2) (ws := st2.reverse))
  intro _
  call (destroy_spec (nf := True) (E := E) (k := k) (a := a2) (ty := ty) (ws := st.reverse))
  intro _
  apply Triple.ret
  xexists outs, outs2, st, st2
  cancel
  refine ⟨h1, h2, ?_⟩
  rw [hx, ho, hy, ho2, List.getLast?_reverse, List.getLast?_reverse, List.length_reverse, List.length_reverse]

/-- Exchanging two adapters with backends of different kinds is undefined behaviour, even right after their creation: the `swap` of the first backend takes the second container for one
of its own kind. -/
theorem C56_swap_violated {k2 : Kind} (hk : k ≠ k2) (hty : ty ≠ 0) {ty2 : Nat} (hty2 : ty2 ≠ 0) :
    Bad R (do
      let a ← create E ty (some k)
      let a2 ← create E ty2 (some k2)
      swap E a a2) := by
  refine Bad.pre (P' := emp ∗ R) (by cancel) ?_
  refine Bad.bind (create_spec (nf := True) (E := E) (k := k) hty) ?_
  intro a
  rw [sep_assoc]
  apply Bad.pure_left
  intro ha
  rw [if_neg (fun h => ha h trivial)]
  refine Bad.pre (P' := emp ∗ (isAd E True k a ty [] ∗ R)) (by cancel) ?_
  refine Bad.bind (create_spec (nf := True) (E := E) (k := k2) hty2) ?_
  intro a2
  rw [sep_assoc]
  apply Bad.pure_left
  intro ha2
  rw [if_neg (fun h => ha2 h trivial)]
  refine Bad.pre ?_ (swap_mixed_bad (a := a) (a2 := a2) (ty := ty) (ty2 := ty2) (ws := []) (ws2 := []) (R := R) hk)
  cancel

end CC.Adapter
