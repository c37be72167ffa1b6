import Verif.Adapter.PqIter
/-!
# Property C83: priority queues and the iterators they allocate

Specification: Verif/Spec/Adapter.lean (`PqStep`, `Runs`), as for C28; the programs are those of Verif/Adapter/PqIter.lean, in which `push` and `pop` work on heap copies of the
backend's iterators.
-/
namespace CC.Adapter
open CC CC.Tac CC.Algo CC.Iter
variable {V : Type} {nf : Prop} {E : Types V} {k : Kind} {a ty comp : Nat} {ws : List V} {R : HProp V} {ρ : Loc → V} {F : Nat → V → V → Bool} {Z : Nat → Nat} {less : Nat → Nat}

theorem pqOpI_spec (hk : k ≠ .list) (hty : ty ≠ 0) (hz : 0 < Z ty) (hc : comp ≠ 0) (hsw : StrictWeak (F comp)) {o : PqOp Loc}
    (ho : ∀ l, o = .push l → l.1 ≠ 0 ∧ ∃ R', R = (pts l (.obj (some (ρ l))) ∗ R')) {st : List V} (hb : (st.length + (pqArgs [o]).length) * Z ty < 2 ^ 63) :
    Triple True (⌜IsHeap (F comp) st⌝ ∗ isPq E True k a ty comp st ∗ R) (runPqOpI E F Z a o)
      (fun r => ∃ₛ st', ⌜PqStep (F comp) ρ True o st r st' ∧ st'.length ≤ st.length + (pqArgs [o]).length⌝ ∗ ⌜IsHeap (F comp) st'⌝ ∗ isPq E True k a ty comp st' ∗ R) := by
  have hok : ∀ st : List V, IsHeap (F comp) st → PqOk (F comp) st := by
    intro st hh m hm
    cases st with
    | nil => simp at hm
    | cons x st =>
      simp only [List.head?_cons, Option.some.injEq] at hm
      subst hm
      exact ⟨List.mem_cons_self, CC.Algo.IsHeap.top hsw hh⟩
  have old : ∀ o : PqOp Loc, (∀ l, o ≠ .push l) → o ≠ .pop → Triple True (⌜IsHeap (F comp) st⌝ ∗ isPq E True k a ty comp st ∗ R) (runPqOp E F a o)
      (fun r => ∃ₛ st', ⌜PqStep (F comp) ρ True o st r st' ∧ st'.length ≤ st.length + (pqArgs [o]).length⌝ ∗ ⌜IsHeap (F comp) st'⌝ ∗ isPq E True k a ty comp st' ∗ R) := by
    intro o h1 h2
    refine Triple.post (pqOp_spec (ρ := ρ) hk hsw (fun l h => absurd h (h1 l))) fun r => ?_
    xintro st' h
    refine ent_ex_right (st') ?_
    have hs := h
    refine ent_pure_right ⟨h, ?_⟩ ?_
    · cases o <;> first | exact absurd rfl (h1 _) | exact absurd rfl h2 | (rw [h.2]; omega)
    · cancel
  cases o with
  | push l =>
    apply Triple.pure_left
    intro hh
    obtain ⟨hl, R', rfl⟩ := ho l rfl
    unfold runPqOpI
    dsimp only
    call (pqPushI_spec (E := E) (a := a) (ty := ty) (ws := st) (v := ρ l) hk hty hz hb hc hsw hl hh)
    intro _
    xintro ws' h
    apply Triple.ret
    refine ent_ex_right (ws') ?_
    refine ent_pure_right ⟨⟨rfl, Or.inl h.1, hok _ h.2⟩, ?_⟩ ?_
    · rw [h.1.length_eq]; exact Nat.le_refl _
    · refine ent_pure_right h.2 ?_
      cancel
  | pop =>
    apply Triple.pure_left
    intro hh
    unfold runPqOpI
    dsimp only
    call (pqPopI_spec (E := E) (a := a) (ty := ty) (ws := st) hk hty hz (by simpa [pqArgs] using hb) hc hsw hh)
    intro _
    xintro ws' h
    apply Triple.ret
    refine ent_ex_right (ws') ?_
    refine ent_pure_right ⟨⟨rfl, h.1, hok _ h.2⟩, ?_⟩ ?_
    · rw [h.1.length_eq, List.length_tail]; omega
    · refine ent_pure_right h.2 ?_
      cancel
  | top => exact old .top (fun l => nofun) nofun
  | empty => exact old .empty (fun l => nofun) nofun
  | size => exact old .size (fun l => nofun) nofun

theorem pqAllI_spec (hk : k ≠ .list) (hty : ty ≠ 0) (hz : 0 < Z ty) (hc : comp ≠ 0) (hsw : StrictWeak (F comp)) : ∀ (os : List (PqOp Loc)) (st : List V),
    Args ρ R (pqArgs os) → (st.length + (pqArgs os).length) * Z ty < 2 ^ 63 →
    Triple True (⌜IsHeap (F comp) st⌝ ∗ isPq E True k a ty comp st ∗ R) (runAll (runPqOpI E F Z a) os)
      (fun rs => ∃ₛ st', ⌜Runs (PqStep (F comp) ρ True) os st rs st'⌝ ∗ isPq E True k a ty comp st' ∗ R)
  | [], st, _, _ => by
    apply Triple.pure_left
    intro _
    unfold runAll
    apply Triple.ret
    refine ent_ex_right (st) ?_
    exact ent_pure_right (Runs.nil st) (ent_refl _)
  | o :: os, st, hargs, hb => by
    have hlen : (pqArgs (o :: os)).length = (pqArgs [o]).length + (pqArgs os).length := by simp [pqArgs]
    unfold runAll
    refine Triple.bind (pqOpI_spec (ρ := ρ) hk hty hz hc hsw ?_ ?_) ?_
    · rintro l rfl
      exact hargs l (by simp [pqArgs])
    · refine Nat.lt_of_le_of_lt (Nat.mul_le_mul_right _ ?_) hb
      omega
    intro r
    xintro st' h
    try rw [sep_emp]
    refine Triple.bind (pqAllI_spec hk hty hz hc hsw os st' (fun l hl => hargs l ?_) ?_) ?_
    · simp only [pqArgs, List.flatMap_cons, List.mem_append] at hl ⊢
      exact Or.inr hl
    · refine Nat.lt_of_le_of_lt (Nat.mul_le_mul_right _ ?_) hb
      have := h.2
      omega
    intro rs
    xintro st'' h'
    apply Triple.ret
    refine ent_ex_right (st'') ?_
    exact ent_pure_right (Runs.cons h.1 h') (ent_refl _)

/-- With enough memory the code's own iterators make no difference: from creation to destruction a priority queue over vector or deque is a priority queue for its comparison, leaves the
client's memory as it found it (so every iterator it allocates is freed) and never behaves undefinedly.  The sizes are those of a 64-bit machine: the elements the client pushes fit
into the address space. -/
theorem C83_priority_queue_partial (hk : k ≠ .list) (hty : ty ≠ 0) (hz : 0 < Z ty) (hc : (if comp ≠ 0 then comp else less ty) ≠ 0)
    (hsw : StrictWeak (F (if comp ≠ 0 then comp else less ty))) (os : List (PqOp Loc)) (hargs : Args ρ R (pqArgs os)) (hb : (pqArgs os).length * Z ty < 2 ^ 63) :
    Triple True R (life (pqCreate E less ty (some k) comp) (runPqOpI E F Z) (destroy E) os)
      (fun r => ⌜∃ outs st, r = some outs ∧ Runs (PqStep (F (if comp ≠ 0 then comp else less ty)) ρ True) os [] outs st⌝ ∗ R) := by
  have hcr := pqCreate_spec (nf := True) (E := E) (k := k) (comp := comp) (less := less) hty
  generalize (if comp ≠ 0 then comp else less ty) = c at hsw hc hcr ⊢
  unfold life
  refine Triple.pre (P' := emp ∗ R) (by cancel) ?_
  refine Triple.bind (Triple.frame hcr) ?_
  intro r
  rw [sep_assoc]
  apply Triple.pure_left
  intro hr
  rw [if_neg fun h => hr h trivial, if_neg fun h => hr h trivial]
  refine Triple.pre (P' := ⌜IsHeap (F c) []⌝ ∗ isPq E True k r ty c [] ∗ R) (ent_pure_right ?_ (ent_refl _)) ?_
  · intro j a b h0 ha hb
    simp at ha
  refine Triple.bind (pqAllI_spec hk hty hz hc hsw os [] hargs (by simpa using hb)) ?_
  intro rs
  xintro st h
  call pqDestroy_spec
  intro _
  apply Triple.ret
  cancel
  exact ⟨rs, st, rfl, h⟩

/-! ## when memory runs out -/

theorem live_nf {nf' : Prop} {t : Ty V} {b : Nat} : ∀ {i : Nat} {ws : List V}, live (plainSpec (nf := nf) t) b i ws = live (plainSpec (nf := nf') t) b i ws
  | _, [] => rfl
  | i, w :: ws => by
    show cell (plainSpec (nf := nf) t) (b, i) w ∗ live (plainSpec (nf := nf) t) b (i + 1) ws = cell (plainSpec (nf := nf') t) (b, i) w ∗ live (plainSpec (nf := nf') t) b (i + 1) ws
    rw [live_nf (nf' := nf')]
    rfl

/-- the representation does not depend on the assumption on the allocator -/
theorem back_nf {nf' : Prop} {b : Nat} : isBack E nf k b ty ws = isBack E nf' k b ty ws := by
  cases k with
  | list => rfl
  | vector =>
    show (∃ₛ impl, blk b 2 ∗ fld b 1 Kind.vector.addr ∗ fld b 2 impl ∗ vecRep E nf ty impl ws) = (∃ₛ impl, blk b 2 ∗ fld b 1 Kind.vector.addr ∗ fld b 2 impl ∗ vecRep E nf' ty impl ws)
    unfold vecRep Vec.isVec
    simp only [live_nf (nf := nf) (nf' := nf')]
  | deque =>
    show (∃ₛ impl, blk b 2 ∗ fld b 1 Kind.deque.addr ∗ fld b 2 impl ∗ deqRep E nf ty impl ws) = (∃ₛ impl, blk b 2 ∗ fld b 1 Kind.deque.addr ∗ fld b 2 impl ∗ deqRep E nf' ty impl ws)
    unfold deqRep Deq.isDeq
    simp only [live_nf (nf := nf) (nf' := nf')]

theorem pq_nf {nf' : Prop} : isPq E nf k a ty comp ws = isPq E nf' k a ty comp ws := by
  unfold isPq
  simp only [back_nf (nf := nf) (nf' := nf')]

theorem Exhausted.pre {P P' : HProp V} {α : Type} {m : M V α} {Q : α → HProp V} (h : P ⊢ₛ P') (hm : Exhausted P' m Q) : Exhausted P m Q := fun s ho hs => hm s ho (h _ hs)

theorem Exhausted.step {P : HProp V} {α β : Type} {m : M V α} {Q : α → HProp V} {k : α → M V β} {R : β → HProp V} (h : Triple False P m Q) (hk : ∀ a, Exhausted (Q a) (k a) R) :
    Exhausted P (m >>= k) R := Exhausted.bind (.of_triple h) hk

/-- the two iterators of `push` and `pop` when the allocator is exhausted: both NULL -/
theorem iters_exhausted (hk : k ≠ .list) (hty : ty ≠ 0) (hz : 0 < Z ty) (hb : ws.length * Z ty < 2 ^ 63) {b : Nat} {α : Type} {K : Addr → Addr → M V α} {Q : α → HProp V}
    (h : Exhausted (isBack E False k b ty ws ∗ R) (K 0 0) Q) :
    Exhausted (isBack E False k b ty ws ∗ R) (do
      let first ← backendIter b false
      let last ← backendIter b true
      K first last) Q := by
  intro s ho hs
  have h1 := sep_mono (back_open (nf := False) hk hty hz hb) (ent_refl R) _ hs
  rw [hex_sep] at h1
  obtain ⟨p, h1⟩ := h1
  rw [sep_assoc] at h1
  obtain ⟨hop, h1⟩ := hpure_sep_apply.1 h1
  refine (Exhausted.bind (R := Q) (backendIter_exhausted (last := false) (G := seg p.1.ref 0 ws ∗ R) hop) fun x => Exhausted.pure_left fun hx => ?_) s ho ((show _ ⊢ₛ _ by unfold bk; cancel) _ h1)
  refine Exhausted.bind (R := Q) (backendIter_exhausted (last := true) (G := seg p.1.ref 0 ws ∗ R) hop) fun y => Exhausted.pure_left fun hy => ?_
  rw [hx, hy]
  refine Exhausted.pre ?_ h
  refine ent_trans (Q := (seg p.1.ref 0 ws ∗ p.2.1 ∗ blk b 2 ∗ fld b 1 k.addr ∗ fld b 2 p.2.2) ∗ R) (by unfold bk; cancel) ?_
  exact sep_mono (hop.fold ws rfl) (ent_refl _)

theorem withComp_null {f : Nat} : withComp F f (fun g => IAlgo.popHeap Z 0 0 g) = pure () := by
  unfold withComp IAlgo.popHeap
  split <;> simp

theorem withComp_null' {f : Nat} : withComp F f (fun g => IAlgo.pushHeap Z 0 0 g) = pure () := by
  unfold withComp IAlgo.pushHeap
  split <;> simp

/-- `c_priority_queue_pop` needs memory.  When there is none it neither reports anything nor leaves the queue alone: it removes whatever element stands last in the backend instead of
the top element. -/
theorem C83_pop_violated (hk : k ≠ .list) (hty : ty ≠ 0) (hz : 0 < Z ty) (hb : ws.length * Z ty < 2 ^ 63) :
    Exhausted (isPq E False k a ty comp ws ∗ R) (pqPopI E F Z a) (fun _ => isPq E False k a ty comp ws.dropLast ∗ R) := by
  intro s ho hs
  have ha : a ≠ 0 := pq_ne hs
  unfold isPq at hs
  rw [hex_sep] at hs
  obtain ⟨b, hs⟩ := hs
  revert s
  show Exhausted _ _ _
  unfold pqPopI
  rw [if_neg ha]
  refine Exhausted.step (Q := fun x => ⌜x = b⌝ ∗ (blk a 2 ∗ fld a 1 b ∗ fld a 2 comp) ∗ isBack E False k b ty ws ∗ R) ?_ fun x => Exhausted.pure_left fun hx => ?_
  · rw [← bind_pure (ldN _)]
    step
    apply Triple.ret
    exact ent_pure_right rfl (by cancel)
  subst hx
  refine Exhausted.pre (P' := isBack E False k x ty ws ∗ (blk a 2 ∗ fld a 1 x ∗ fld a 2 comp) ∗ R) (by cancel) ?_
  refine iters_exhausted hk hty hz hb ?_
  refine Exhausted.of_triple ?_
  step
  rw [withComp_null, pure_bind]
  step
  refine Triple.pre (P' := isBack E False k x ty ws ∗ (blk a 2 ∗ fld a 1 x ∗ fld a 2 comp) ∗ R) (by cancel) ?_
  apply ops_spec
  call bpopBack_spec
  intro _
  have hf : (free 0 : M V Unit) = pure () := by unfold free; simp
  rw [hf, pure_bind]
  apply Triple.ret
  unfold isPq
  xexists x
  cancel

/-- In the same situation `c_priority_queue_push` appends the element (if the backend has room) without restoring the order. -/
theorem C83_push_exhausted_partial (hk : k ≠ .list) (hty : ty ≠ 0) (hz : 0 < Z ty) (hb : (ws.length + 1) * Z ty < 2 ^ 63) {l : Loc} {v : V} (hl : l.1 ≠ 0) :
    Exhausted (isPq E False k a ty comp ws ∗ pts l (.obj (some v))) (pqPushI E F Z a l)
      (fun _ => ∃ₛ ws', ⌜ws' = ws ++ [v] ∨ ws' = ws⌝ ∗ isPq E False k a ty comp ws' ∗ pts l (.obj (some v))) := by
  intro s ho hs
  have ha : a ≠ 0 := pq_ne hs
  unfold isPq at hs
  rw [hex_sep] at hs
  obtain ⟨b, hs⟩ := hs
  revert s
  show Exhausted _ _ _
  unfold pqPushI
  rw [if_neg (by simp [ha, hl])]
  refine Exhausted.step (Q := fun x => ⌜x = b⌝ ∗ ((blk a 2 ∗ fld a 1 b ∗ fld a 2 comp) ∗ isBack E False k b ty ws) ∗ pts l (.obj (some v))) ?_ fun x => Exhausted.pure_left fun hx => ?_
  · rw [← bind_pure (ldN _)]
    step
    apply Triple.ret
    exact ent_pure_right rfl (by cancel)
  subst hx
  refine Exhausted.step (Q := fun o => ⌜o = wrap (k.impl E)⌝ ∗ isBack E False k x ty ws ∗ (blk a 2 ∗ fld a 1 x ∗ fld a 2 comp) ∗ pts l (.obj (some v))) ?_ fun o => Exhausted.pure_left fun ho => ?_
  · call ops_spec'
    intro r
    cancel
  subst ho
  refine Exhausted.step (Q := fun _ => ∃ₛ ws', ⌜ws' = ws ++ [v] ∨ ws' = ws⌝ ∗ isBack E False k x ty ws' ∗ (blk a 2 ∗ fld a 1 x ∗ fld a 2 comp) ∗ pts l (.obj (some v))) ?_ fun _ => ?_
  · call (bpushBack_spec (E := E) (k := k) (b := x) (ty := ty) (ws := ws) (v := v) hl)
    intro _
    xintro ws1 h1
    refine ent_ex_right (ws1) ?_
    refine ent_pure_right (h1.imp id fun h => h.2) (by cancel)
  intro s hs hm
  obtain ⟨ws1, hm⟩ := hm
  rw [hpure_sep_apply] at hm
  obtain ⟨h1, hm⟩ := hm
  revert s
  show Exhausted _ _ _
  have hb1 : ws1.length * Z ty < 2 ^ 63 := by
    refine Nat.lt_of_le_of_lt (Nat.mul_le_mul_right _ ?_) hb
    rcases h1 with rfl | rfl <;> simp
  refine Exhausted.step (Q := fun y => ⌜y = x⌝ ∗ isBack E False k x ty ws1 ∗ (blk a 2 ∗ fld a 1 x ∗ fld a 2 comp) ∗ pts l (.obj (some v))) ?_ fun y => Exhausted.pure_left fun hx => ?_
  · rw [← bind_pure (ldN _)]
    step
    apply Triple.ret
    exact ent_pure_right rfl (by cancel)
  subst hx
  refine iters_exhausted hk hty hz hb1 ?_
  refine Exhausted.of_triple ?_
  step
  rw [withComp_null', pure_bind]
  have hf : (free 0 : M V Unit) = pure () := by unfold free; simp
  rw [hf, pure_bind]
  apply Triple.ret
  refine ent_ex_right (ws1) ?_
  refine ent_pure_right h1 ?_
  unfold isPq
  xexists y
  cancel

/-- two elements, greatest first -/
theorem pq_two {E : Types Nat} {F : Nat → Nat → Nat → Bool} (hk : k ≠ .list) (hty : ty ≠ 0) (hz : 0 < Z ty) (hb : 2 * Z ty < 2 ^ 63) (hF : F 1 = fun a b => decide (a < b)) {l5 l3 : Loc} :
    Triple True (pts l5 (.obj (some 5)) ∗ pts l3 (.obj (some 3))) (do
        let q ← pqCreate E less ty (some k) 1
        pqPushI E F Z q l5
        pqPushI E F Z q l3
        pure q)
      (fun q => isPq E True k q ty 1 [5, 3] ∗ pts l5 (.obj (some 5)) ∗ pts l3 (.obj (some 3))) := by
  refine Triple.fact (p := l5.1 ≠ 0 ∧ l3.1 ≠ 0) (fun h hh => ⟨pts_ne_zero hh, by rw [sep_comm] at hh; exact pts_ne_zero hh⟩) ?_
  rintro ⟨h5, h3⟩
  call (pqCreate_spec (nf := True) (E := E) (k := k) (comp := 1) (less := less) hty)
  intro q
  xintro hq
  rw [if_neg (fun h => hq h trivial), if_pos (by decide)]
  have hsw : StrictWeak (F 1) := by rw [hF]; exact strictWeak_nat
  have hempty : IsHeap (F 1) [] := by intro j a b h0 ha hb; simp at ha
  call (pqPushI_spec (E := E) (F := F) (k := k) (a := q) (ty := ty) (comp := 1) (ws := []) (v := 5) hk hty hz (by simp; omega) (by decide) hsw h5 hempty)
  intro _
  xintro ws1 h1
  have hw1 : ws1 = [5] := List.perm_singleton.1 h1.1
  subst hw1
  call (pqPushI_spec (E := E) (F := F) (k := k) (a := q) (ty := ty) (comp := 1) (ws := [5]) (v := 3) hk hty hz (by simpa using hb) (by decide) hsw h3 h1.2)
  intro _
  xintro ws2 h2
  have hw2 : ws2 = [5, 3] := by
    obtain ⟨hp, hh⟩ := h2
    have hl := hp.length_eq
    match ws2, hl with
    | [x, y], _ =>
      have hx : x ∈ [3, 5] := hp.mem_iff.1 (by simp)
      have hy : y ∈ [3, 5] := hp.mem_iff.1 (by simp)
      have h35 : 3 ∈ [x, y] := hp.mem_iff.2 (by simp)
      have h53 : 5 ∈ [x, y] := hp.mem_iff.2 (by simp)
      have := hh 1 x y (by omega) rfl rfl
      rw [hF] at this
      simp only [List.mem_cons, List.not_mem_nil, or_false, decide_eq_false_iff_not] at hx hy h35 h53 this
      obtain ⟨rfl, rfl⟩ : x = 5 ∧ y = 3 := by omega
      rfl
  subst hw2
  apply Triple.ret
  cancel

/-- Non-vacuity of C83_priority_queue_partial, and a client that pushes 5 and 3, greatest first, and so reaches a memory in which, the allocator failing from then on, `pop` removes 3
(C83_pop_violated): the queue then holds 5 instead of 3. -/
example (E : Types Nat) : ∃ (m : Mem Nat) (a : Nat) (R : HProp Nat), (∀ t, m.orc t = 0) ∧ (isPq E False .vector a 1 1 [5, 3] ∗ R) m.cells ∧
    [5, 3].length * (fun _ => 8 : Nat → Nat) 1 < 2 ^ 63 ∧ ¬ ([5, 3].dropLast.Perm [5, 3].tail) := by
  obtain ⟨m, c, d, l, ho, hm⟩ := exists_ranges (V := Nat) [5] [3] 4
  simp only [seg_one] at hm
  rw [← sep_assoc] at hm
  obtain ⟨a, s', -, -, h3⟩ := (pq_two (E := E) (F := fun _ a b => decide (a < b)) (k := .vector) (ty := 1) (Z := fun _ => 8) (less := fun _ => 0) (by decide) (by decide) (by decide) (by decide) rfl).run
    (s := m) (fun _ => ho) hm
  refine ⟨{ s' with orc := fun _ => 0 }, a, (pts (c 0) (.obj (some 5)) ∗ pts (d 0) (.obj (some 3))) ∗ pts l (.obj (some 4)), fun _ => rfl, ?_, by decide, by decide⟩
  rw [pq_nf (nf' := True)]
  rw [sep_assoc] at h3
  exact h3

end CC.Adapter
