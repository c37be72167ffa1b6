import Verif.Adapter.Spec2
import Verif.Algo.SortSpec
import Verif.Spec.Adapter
import Verif.Core.Bad
/-!
# Client programs: histories of adapter operations
-/
namespace CC.Adapter
open CC CC.Tac CC.Algo
variable {V α β : Type} {nf : Prop} {E : Types V} {k : Kind} {a b ty : Nat} {ws : List V} {R : HProp V} {ρ : Loc → V}

/-- the client looks at the element a returned reference designates -/
def look (r : Loc) : M V (Out V) :=
  if r.1 = 0 then pure (.elem none) else do
  let v ← ldV r
  pure (.elem (some v))

/-- one operation of a stack -/
def runStackOp (E : Types V) (a : Addr) : StackOp Loc → M V (Out V)
  | .push l => do
    push E a l
    pure .done
  | .pop => do
    popB E a
    pure .done
  | .top => do
    let r ← back E a
    look r
  | .empty => do
    let b ← empty E a
    pure (.flag b)

/-- one operation of a queue -/
def runQueueOp (E : Types V) (a : Addr) : QueueOp Loc → M V (Out V)
  | .push l => do
    push E a l
    pure .done
  | .pop => do
    popF E a
    pure .done
  | .front => do
    let r ← front E a
    look r
  | .back => do
    let r ← back E a
    look r
  | .empty => do
    let b ← empty E a
    pure (.flag b)
  | .size => do
    let n ← size E a
    pure (.num n)

/-- one operation of a priority queue -/
def runPqOp (E : Types V) (F : Nat → V → V → Bool) (a : Addr) : PqOp Loc → M V (Out V)
  | .push l => do
    pqPush E F a l
    pure .done
  | .pop => do
    pqPop E F a
    pure .done
  | .top => do
    let r ← front E a
    look r
  | .empty => do
    let b ← empty E a
    pure (.flag b)
  | .size => do
    let n ← size E a
    pure (.num n)

/-- run a history and collect the observations -/
def runAll {O : Type} (f : O → M V (Out V)) : List O → M V (List (Out V))
  | [] => pure []
  | o :: os => do
    let r ← f o
    let rs ← runAll f os
    pure (r :: rs)

/-- the life of an adapter: create, use, destroy (nothing is observed if creation fails) -/
def life {O : Type} (create : M V Addr) (f : Addr → O → M V (Out V)) (destroy : Addr → M V Unit) (os : List O) : M V (Option (List (Out V))) := do
  let a ← create
  if a = 0 then pure none else do
  let rs ← runAll (f a) os
  destroy a
  pure (some rs)

/-- Every pushed reference designates an object of the client. -/
def Args (ρ : Loc → V) (R : HProp V) (ls : List Loc) : Prop := ∀ l ∈ ls, l.1 ≠ 0 ∧ ∃ R', R = (pts l (.obj (some (ρ l))) ∗ R')

def stackArgs (os : List (StackOp Loc)) : List Loc := os.flatMap fun | .push l => [l] | _ => []
def queueArgs (os : List (QueueOp Loc)) : List Loc := os.flatMap fun | .push l => [l] | _ => []
def pqArgs (os : List (PqOp Loc)) : List Loc := os.flatMap fun | .push l => [l] | _ => []

theorem look_spec {r : Loc} {ow : Option V} {P : HProp V} : Triple nf (peek r ow P) (look r) (fun o => ⌜o = .elem ow⌝ ∗ P) := by
  unfold look peek
  cases ow with
  | none =>
    dsimp only
    apply Triple.pure_left
    intro h
    rw [if_pos h]
    apply Triple.ret
    cancel
  | some w =>
    dsimp only
    xintro F h
    rw [if_neg h.1]
    step
    apply Triple.ret
    exact ent_pure_right rfl h.2

/-- running a history of operations that all preserve a representation -/
theorem runAll_spec {O S : Type} {f : O → M V (Out V)} {step : O → S → Out V → S → Prop} {I : S → HProp V} {ok : O → Prop}
    (h : ∀ o s, ok o → Triple nf (I s) (f o) (fun r => ∃ₛ s', ⌜step o s r s'⌝ ∗ I s')) :
    ∀ (os : List O) (s : S), (∀ o ∈ os, ok o) → Triple nf (I s) (runAll f os) (fun rs => ∃ₛ s', ⌜Runs step os s rs s'⌝ ∗ I s')
  | [], s, _ => by
    unfold runAll
    apply Triple.ret
    xexists s
    rw [sep_emp]
    exact ent_pure_right (Runs.nil s) (ent_refl _)
  | o :: os, s, hok => by
    unfold runAll
    refine Triple.bind (h o s (hok o List.mem_cons_self)) ?_
    intro r
    xintro s' hs
    try rw [sep_emp]
    refine Triple.bind (runAll_spec h os s' (fun o ho => hok o (List.mem_cons_of_mem _ ho))) ?_
    intro rs
    xintro s'' hs'
    apply Triple.ret
    xexists s''
    rw [sep_emp]
    exact ent_pure_right (Runs.cons hs hs') (ent_refl _)

theorem stackOp_spec {o : StackOp Loc} (ho : ∀ l, o = .push l → l.1 ≠ 0 ∧ ∃ R', R = (pts l (.obj (some (ρ l))) ∗ R')) {st : List V} :
    Triple nf (isAd E nf k a ty st.reverse ∗ R) (runStackOp E a o) (fun r => ∃ₛ st', ⌜StackStep ρ nf o st r st'⌝ ∗ isAd E nf k a ty st'.reverse ∗ R) := by
  cases o with
  | push l =>
    obtain ⟨hl, R', rfl⟩ := ho l rfl
    unfold runStackOp
    dsimp only
    call (push_spec (E := E) (k := k) (a := a) (ty := ty) (ws := st.reverse) (v := ρ l) hl)
    intro _
    xintro ws' h
    apply Triple.ret
    xexists ws'.reverse
    rw [List.reverse_reverse]
    cancel
    refine ⟨rfl, h.imp (fun h => ?_) fun h => ⟨h.1, ?_⟩⟩
    · rw [h]; simp
    · rw [h.2]; simp
  | pop =>
    unfold runStackOp
    dsimp only
    call (popB_spec (E := E) (k := k) (a := a) (ty := ty) (ws := st.reverse))
    intro _
    apply Triple.ret
    xexists st.tail
    have : st.tail.reverse = st.reverse.dropLast := by cases st <;> simp
    rw [this]
    cancel
    all_goals exact ⟨rfl, rfl⟩
  | top =>
    unfold runStackOp
    dsimp only
    call (back_spec (E := E) (k := k) (a := a) (ty := ty) (ws := st.reverse))
    intro r
    call (look_spec (nf := nf) (r := r))
    intro o
    xintro h
    xexists st
    cancel
    refine ⟨?_, rfl⟩
    rw [h, List.getLast?_reverse]
  | empty =>
    unfold runStackOp
    dsimp only
    call (empty_spec (E := E) (k := k) (a := a) (ty := ty) (ws := st.reverse))
    intro r
    xintro h
    apply Triple.ret
    xexists st
    cancel
    refine ⟨?_, rfl⟩
    rw [h]; simp

theorem queueOp_spec {o : QueueOp Loc} (hk : k ≠ .vector ∨ o ≠ .pop) (ho : ∀ l, o = .push l → l.1 ≠ 0 ∧ ∃ R', R = (pts l (.obj (some (ρ l))) ∗ R')) {st : List V} :
    Triple nf (isAd E nf k a ty st ∗ R) (runQueueOp E a o) (fun r => ∃ₛ st', ⌜QueueStep ρ nf o st r st'⌝ ∗ isAd E nf k a ty st' ∗ R) := by
  cases o with
  | push l =>
    obtain ⟨hl, R', rfl⟩ := ho l rfl
    unfold runQueueOp
    dsimp only
    call (push_spec (E := E) (k := k) (a := a) (ty := ty) (ws := st) (v := ρ l) hl)
    intro _
    xintro ws' h
    apply Triple.ret
    xexists ws'
    cancel
    all_goals exact ⟨rfl, h⟩
  | pop =>
    unfold runQueueOp
    dsimp only
    call (popF_spec (E := E) (k := k) (a := a) (ty := ty) (ws := st) (hk.resolve_right (fun h => h rfl)))
    intro _
    apply Triple.ret
    xexists st.tail
    cancel
    all_goals exact ⟨rfl, rfl⟩
  | front =>
    unfold runQueueOp
    dsimp only
    call (front_spec (E := E) (k := k) (a := a) (ty := ty) (ws := st))
    intro r
    call (look_spec (nf := nf) (r := r))
    intro o
    xintro h
    xexists st
    cancel
    all_goals exact ⟨h, rfl⟩
  | back =>
    unfold runQueueOp
    dsimp only
    call (back_spec (E := E) (k := k) (a := a) (ty := ty) (ws := st))
    intro r
    call (look_spec (nf := nf) (r := r))
    intro o
    xintro h
    xexists st
    cancel
    all_goals exact ⟨h, rfl⟩
  | empty =>
    unfold runQueueOp
    dsimp only
    call (empty_spec (E := E) (k := k) (a := a) (ty := ty) (ws := st))
    intro r
    xintro h
    apply Triple.ret
    xexists st
    cancel
    all_goals exact ⟨by rw [h], rfl⟩
  | size =>
    unfold runQueueOp
    dsimp only
    call (size_spec (E := E) (k := k) (a := a) (ty := ty) (ws := st))
    intro r
    xintro h
    apply Triple.ret
    xexists st
    cancel
    all_goals exact ⟨by rw [h], rfl⟩

/-! ## priority queues -/

/-- the priority queue object `a` -/
def isPq (E : Types V) (nf : Prop) (k : Kind) (a ty comp : Nat) (ws : List V) : HProp V :=
  ∃ₛ b, (blk a 2 ∗ fld a 1 b ∗ fld a 2 comp) ∗ isBack E nf k b ty ws

variable {comp : Nat} {F : Nat → V → V → Bool}

theorem pq_ne {P : HProp V} {h : Heap V} (hh : (isPq E nf k a ty comp ws ∗ P) h) : a ≠ 0 := by
  have : (isPq E nf k a ty comp ws ∗ P) ⊢ₛ ∃ₛ b, blk a 2 ∗ (fld a 1 b ∗ fld a 2 comp ∗ isBack E nf k b ty ws ∗ P) := by
    unfold isPq
    xintro b
    xexists b
    cancel
  obtain ⟨b, h2⟩ := this _ hh
  exact pts_ne_zero h2

theorem pqCreate_spec {less : Nat → Nat} (hty : ty ≠ 0) :
    Triple nf emp (pqCreate E less ty (some k) comp)
      (fun r => ⌜r = 0 → ¬ nf⌝ ∗ if r = 0 then emp else isPq E nf k r ty (if comp ≠ 0 then comp else less ty) []) := by
  unfold pqCreate
  dsimp only
  rw [if_neg hty]
  apply mallocS2
  · intro h
    rw [if_pos rfl]
    apply Triple.ret
    rw [if_pos rfl]
    cancel
    exact fun _ => h
  intro a x y ha
  rw [if_neg ha]
  call (createBackend_spec (E := E) (k := k) hty)
  intro r
  xintro hr
  step
  by_cases h0 : r = 0
  · rw [if_pos h0, if_pos h0]
    call free2
    intro _
    apply Triple.ret
    rw [if_pos rfl]
    cancel
    exact fun _ => hr h0
  · rw [if_neg h0, if_neg h0]
    step
    apply Triple.ret
    rw [if_neg ha]
    unfold isPq
    xexists r
    cancel
    exact fun h => absurd h ha

/-- a function that a priority queue shares with the other adapters -/
theorem pqFwd_spec {m : Addr → BOps V → M V α} {g d : M V α} {Q : Addr → α → HProp V} {Q' : α → HProp V}
    (hg : g = if a = 0 then d else do let b ← ldN (a, 1); let o ← ops E b; m b o)
    (hf : ∀ b, Triple nf (isBack E nf k b ty ws) (m b (wrap (k.impl E))) (Q b))
    (hq : ∀ b r, ((blk a 2 ∗ fld a 1 b ∗ fld a 2 comp) ∗ Q b r) ⊢ₛ Q' r) :
    Triple nf (isPq E nf k a ty comp ws) g Q' := by
  refine Triple.fact (p := a ≠ 0) (fun h hh => pq_ne (P := emp) (by rw [sep_emp]; exact hh)) ?_
  intro ha
  rw [hg, if_neg ha]
  unfold isPq
  xintro b
  try rw [sep_emp]
  step
  refine Triple.pre (P' := isBack E nf k b ty ws ∗ (blk a 2 ∗ fld a 1 b ∗ fld a 2 comp)) (by cancel) ?_
  apply ops_spec
  refine Triple.post (Triple.frame (hf b)) ?_
  intro r
  refine ent_trans ?_ (hq b r)
  cancel

theorem isPq_fold : ((blk a 2 ∗ fld a 1 b ∗ fld a 2 comp) ∗ isBack E nf k b ty ws) ⊢ₛ isPq E nf k a ty comp ws := by
  unfold isPq
  xexists b
  cancel

theorem pqDestroy_spec : Triple nf (isPq E nf k a ty comp ws) (destroy E a) (fun _ => emp) := by
  refine Triple.fact (p := a ≠ 0) (fun h hh => pq_ne (P := emp) (by rw [sep_emp]; exact hh)) ?_
  intro ha
  unfold destroy isPq
  rw [if_neg ha]
  xintro b
  try rw [sep_emp]
  step
  refine Triple.pre (P' := isBack E nf k b ty ws ∗ (blk a 2 ∗ fld a 1 b ∗ fld a 2 comp)) (by cancel) ?_
  apply ops_spec
  call bdestroy_spec
  intro _
  call free2
  intro _
  cancel

theorem pqTop_spec : Triple nf (isPq E nf k a ty comp ws) (front E a) (fun r => peek r ws.head? (isPq E nf k a ty comp ws)) := by
  refine pqFwd_spec (m := fun b o => o.front b) rfl (fun _ => bfront_spec) fun b r => ?_
  unfold peek
  cases ws.head? with
  | none =>
    dsimp only
    xintro h
    unfold isPq
    xexists b
    cancel
  | some w =>
    dsimp only
    xintro G h
    refine peek_some (F := G ∗ blk a 2 ∗ fld a 1 b ∗ fld a 2 comp) h.1 (by cancel) ?_
    refine ent_trans ?_ (isPq_fold (b := b))
    refine ent_trans (Q := (blk a 2 ∗ fld a 1 b ∗ fld a 2 comp) ∗ (pts r (.obj (some w)) ∗ G)) (by cancel) ?_
    exact sep_mono (ent_refl _) h.2

theorem pqEmpty_spec : Triple nf (isPq E nf k a ty comp ws) (empty E a) (fun r => ⌜r = ws.isEmpty⌝ ∗ isPq E nf k a ty comp ws) := by
  refine pqFwd_spec (m := fun b o => o.empty b) rfl (fun _ => bempty_spec) fun b r => ?_
  xintro h
  refine ent_pure_right h (ent_trans ?_ (isPq_fold (b := b)))
  cancel

theorem pqSize_spec : Triple nf (isPq E nf k a ty comp ws) (size E a) (fun r => ⌜r = ws.length⌝ ∗ isPq E nf k a ty comp ws) := by
  refine pqFwd_spec (m := fun b o => o.size b) rfl (fun _ => bsize_spec) fun b r => ?_
  xintro h
  refine ent_pure_right h (ent_trans ?_ (isPq_fold (b := b)))
  cancel

theorem isHeap_init {lt : V → V → Bool} {v : V} (h : IsHeap lt (ws ++ [v])) : IsHeap lt ws := by
  intro j a b h0 ha hb
  refine h j a b h0 ?_ ?_
  · rw [List.getElem?_append_left]
    · exact ha
    · exact (List.getElem?_eq_some_iff.1 ha).1
  · rw [List.getElem?_append_left]
    · exact hb
    · exact (List.getElem?_eq_some_iff.1 hb).1

theorem pqPush_spec (hk : k ≠ .list) (hsw : StrictWeak (F comp)) {l : Loc} {v : V} (hl : l.1 ≠ 0) (hh : IsHeap (F comp) ws) :
    Triple nf (isPq E nf k a ty comp ws ∗ pts l (.obj (some v))) (pqPush E F a l)
      (fun _ => ∃ₛ ws', ⌜(ws'.Perm (v :: ws) ∨ (¬ nf ∧ ws'.Perm ws)) ∧ IsHeap (F comp) ws'⌝ ∗ isPq E nf k a ty comp ws' ∗ pts l (.obj (some v))) := by
  refine Triple.fact (p := a ≠ 0) (fun h hh => pq_ne hh) ?_
  intro ha
  unfold pqPush isPq
  rw [if_neg (by simp [ha, hl])]
  xintro b
  step
  refine Triple.pre (P' := isBack E nf k b ty ws ∗ (pts l (.obj (some v)) ∗ (blk a 2 ∗ fld a 1 b ∗ fld a 2 comp))) (by cancel) ?_
  apply ops_spec
  call (bpushBack_spec (E := E) (k := k) (b := b) (ty := ty) (ws := ws) (v := v) hl)
  intro _
  xintro ws1 h1
  call (brange_spec (E := E) (nf := nf) (b := b) (ty := ty) (ws := ws1) hk)
  intro r
  xintro c G hc
  rw [hc.1]
  step
  unfold heapCall
  dsimp only
  have hheap : Triple nf (seg c 0 ws1) (pushHeap c 0 ws1.length (F comp)) (fun _ => ∃ₛ ws', ⌜ws'.Perm ws1 ∧ IsHeap (F comp) ws'⌝ ∗ seg c 0 ws') := by
    rcases List.eq_nil_or_concat ws1 with rfl | ⟨X, w, rfl⟩
    · unfold pushHeap
      rw [if_pos (by simp)]
      apply Triple.ret
      xexists []
      cancel
      refine ⟨List.Perm.refl _, ?_⟩
      intro j a b h0 ha hb
      simp at ha
    · simp only [List.concat_eq_append] at h1 ⊢
      have hX : IsHeap (F comp) X := by
        rcases h1 with h1 | h1
        · rw [(List.append_inj' h1 rfl).1]; exact hh
        · rw [← h1.2] at hh; exact isHeap_init hh
      have := pushHeap_spec (nf := nf) (c := c) (i := 0) hsw (v := w) hX
      simp only [Nat.zero_add] at this
      rw [List.length_append, List.length_singleton]
      exact this
  call hheap
  intro _
  xintro ws' h'
  xexists ws', b
  refine ent_trans (Q := (seg c 0 ws' ∗ G) ∗ (blk a 2 ∗ fld a 1 b ∗ fld a 2 comp) ∗ pts l (.obj (some v))) (by cancel) ?_
  refine ent_trans (sep_mono (hc.2 ws' h'.1.length_eq) (ent_refl _)) ?_
  cancel
  refine ⟨h1.imp (fun h1 => ?_) fun h1 => ⟨h1.1, ?_⟩, h'.2⟩
  · refine h'.1.trans ?_
    rw [h1]
    exact List.perm_append_comm
  · rw [← h1.2]; exact h'.1

theorem pqPop_spec (hk : k ≠ .list) (hsw : StrictWeak (F comp)) (hh : IsHeap (F comp) ws) :
    Triple nf (isPq E nf k a ty comp ws) (pqPop E F a)
      (fun _ => ∃ₛ ws', ⌜ws'.Perm ws.tail ∧ IsHeap (F comp) ws'⌝ ∗ isPq E nf k a ty comp ws') := by
  refine Triple.fact (p := a ≠ 0) (fun h hh => pq_ne (P := emp) (by rw [sep_emp]; exact hh)) ?_
  intro ha
  unfold pqPop isPq
  rw [if_neg ha]
  xintro b
  try rw [sep_emp]
  step
  refine Triple.pre (P' := isBack E nf k b ty ws ∗ (blk a 2 ∗ fld a 1 b ∗ fld a 2 comp)) (by cancel) ?_
  apply ops_spec
  call (brange_spec (E := E) (nf := nf) (b := b) (ty := ty) (ws := ws) hk)
  intro r
  xintro c G hc
  rw [hc.1]
  step
  unfold heapCall
  dsimp only
  have hheap : Triple nf (seg c 0 ws) (popHeap c 0 ws.length (F comp))
      (fun _ => ∃ₛ ws', ⌜ws'.length = ws.length ∧ ws'.dropLast.Perm ws.tail ∧ IsHeap (F comp) ws'.dropLast⌝ ∗ seg c 0 ws') := by
    cases ws with
    | nil =>
      unfold popHeap
      rw [if_pos (by simp)]
      apply Triple.ret
      xexists []
      cancel
      all_goals
        refine ⟨rfl, List.Perm.refl _, ?_⟩
        intro j a b h0 ha hb
        simp at ha
    | cons w ws =>
      have := popHeap_spec (nf := nf) (c := c) (i := 0) hsw hh
      simp only [Nat.zero_add] at this
      refine Triple.post this ?_
      intro _
      xintro ws' h'
      xexists ws' ++ [w]
      cancel
      refine ⟨by simp [h'.1.length_eq], ?_, ?_⟩
      · rw [List.dropLast_concat]; exact h'.1
      · rw [List.dropLast_concat]; exact h'.2
  call hheap
  intro _
  xintro ws' h'
  refine Triple.pre (P' := isBack E nf k b ty ws' ∗ (blk a 2 ∗ fld a 1 b ∗ fld a 2 comp)) ?_ ?_
  · refine ent_trans (Q := (seg c 0 ws' ∗ G) ∗ (blk a 2 ∗ fld a 1 b ∗ fld a 2 comp)) (by cancel) ?_
    exact sep_mono (hc.2 ws' h'.1) (ent_refl _)
  call bpopBack_spec
  intro _
  xexists ws'.dropLast, b
  cancel
  exact h'.2

theorem pqOp_spec (hk : k ≠ .list) (hsw : StrictWeak (F comp)) {o : PqOp Loc} (ho : ∀ l, o = .push l → l.1 ≠ 0 ∧ ∃ R', R = (pts l (.obj (some (ρ l))) ∗ R'))
    {st : List V} :
    Triple nf (⌜IsHeap (F comp) st⌝ ∗ isPq E nf k a ty comp st ∗ R) (runPqOp E F a o)
      (fun r => ∃ₛ st', ⌜PqStep (F comp) ρ nf o st r st'⌝ ∗ ⌜IsHeap (F comp) st'⌝ ∗ isPq E nf k a ty comp st' ∗ R) := by
  apply Triple.pure_left
  intro hh
  have hok : ∀ st : List V, IsHeap (F comp) st → PqOk (F comp) st := by
    intro st hh m hm
    cases st with
    | nil => simp at hm
    | cons x st =>
      simp only [List.head?_cons, Option.some.injEq] at hm
      subst hm
      exact ⟨List.mem_cons_self, CC.Algo.IsHeap.top hsw hh⟩
  cases o with
  | push l =>
    obtain ⟨hl, R', rfl⟩ := ho l rfl
    unfold runPqOp
    dsimp only
    call (pqPush_spec (E := E) (nf := nf) (a := a) (ty := ty) (ws := st) (v := ρ l) hk hsw hl hh)
    intro _
    xintro ws' h
    apply Triple.ret
    xexists ws'
    cancel
    · exact h.2
    · exact ⟨rfl, h.1, hok _ h.2⟩
  | pop =>
    unfold runPqOp
    dsimp only
    call (pqPop_spec (E := E) (nf := nf) (a := a) (ty := ty) (ws := st) hk hsw hh)
    intro _
    xintro ws' h
    apply Triple.ret
    xexists ws'
    cancel
    · exact h.2
    · exact ⟨rfl, h.1, hok _ h.2⟩
  | top =>
    unfold runPqOp
    dsimp only
    call (pqTop_spec (E := E) (k := k) (a := a) (ty := ty) (comp := comp) (ws := st))
    intro r
    call (look_spec (nf := nf) (r := r))
    intro o
    xintro h
    xexists st
    cancel
    all_goals exact ⟨h, rfl⟩
  | empty =>
    unfold runPqOp
    dsimp only
    call (pqEmpty_spec (E := E) (k := k) (a := a) (ty := ty) (comp := comp) (ws := st))
    intro r
    xintro h
    apply Triple.ret
    xexists st
    cancel
    all_goals exact ⟨by rw [h], rfl⟩
  | size =>
    unfold runPqOp
    dsimp only
    call (pqSize_spec (E := E) (k := k) (a := a) (ty := ty) (comp := comp) (ws := st))
    intro r
    xintro h
    apply Triple.ret
    xexists st
    cancel
    all_goals exact ⟨by rw [h], rfl⟩

/-- the whole life of an adapter, from the specifications of creation, operations and destruction -/
theorem life_spec {O S : Type} {create : M V Addr} {f : Addr → O → M V (Out V)} {destroy : Addr → M V Unit} {os : List O} {step : O → S → Out V → S → Prop}
    {I : Addr → S → HProp V} {s0 : S} {ok : O → Prop} {C0 : Addr → HProp V}
    (hc : Triple nf emp create (fun r => ⌜r = 0 → ¬ nf⌝ ∗ if r = 0 then emp else C0 r))
    (hi : ∀ a, (C0 a ∗ R) ⊢ₛ I a s0)
    (hf : ∀ a o s, ok o → Triple nf (I a s) (f a o) (fun r => ∃ₛ s', ⌜step o s r s'⌝ ∗ I a s'))
    (hd : ∀ a s, Triple nf (I a s) (destroy a) (fun _ => R))
    (hok : ∀ o ∈ os, ok o) :
    Triple nf R (life create f destroy os)
      (fun r => ⌜(r = none ∧ ¬ nf) ∨ ∃ outs s', r = some outs ∧ Runs step os s0 outs s'⌝ ∗ R) := by
  unfold life
  refine Triple.pre (P' := emp ∗ R) (by cancel) ?_
  refine Triple.bind (Triple.frame hc) ?_
  intro r
  by_cases h0 : r = 0
  · simp only [if_pos h0]
    rw [sep_assoc]
    apply Triple.pure_left
    intro hr
    apply Triple.ret
    cancel
    exact Or.inl ⟨rfl, hr h0⟩
  · simp only [if_neg h0]
    rw [sep_assoc]
    apply Triple.pure_left
    intro hr
    refine Triple.pre (hi r) ?_
    refine Triple.bind (runAll_spec (hf r) os s0 hok) ?_
    intro rs
    xintro s' hs
    try rw [sep_emp]
    refine Triple.bind (hd r s') ?_
    intro _
    apply Triple.ret
    cancel
    exact Or.inr ⟨rs, s', rfl, hs⟩

theorem pqSwap_spec {a2 ty2 comp2 : Nat} {ws2 : List V} :
    Triple nf (isPq E nf k a ty comp ws ∗ isPq E nf k a2 ty2 comp2 ws2) (swap E a a2)
      (fun _ => isPq E nf k a ty2 comp ws2 ∗ isPq E nf k a2 ty comp2 ws) := by
  refine Triple.fact (p := a ≠ 0) (fun h hh => pq_ne hh) ?_
  intro ha
  refine Triple.fact (p := a2 ≠ 0) (fun h hh => pq_ne (by rw [sep_comm] at hh; exact hh)) ?_
  intro ha2
  unfold swap isPq
  rw [if_neg (by simp [ha, ha2])]
  xintro b b2
  steps
  refine Triple.pre (P' := isBack E nf k b ty ws ∗ (isBack E nf k b2 ty2 ws2 ∗ (blk a 2 ∗ fld a 1 b ∗ fld a 2 comp) ∗ (blk a2 2 ∗ fld a2 1 b2 ∗ fld a2 2 comp2))) (by cancel) ?_
  apply ops_spec
  call bswap_spec
  intro _
  xexists b, b2
  cancel

/-- one execution of `algo_push_heap_by` on a range that is not a heap -/
theorem pushHeap_three {c : Slots} {lt : V → V → Bool} {x y z : V} (h : lt x z = true) :
    Triple nf (seg c 0 [x, y, z]) (pushHeap c 0 3 lt) (fun _ => seg c 0 [z, y, x]) := by
  unfold pushHeap
  rw [if_neg (by omega)]
  apply dec_spec
  simp only [seg_cons, seg_nil, sep_emp, Nat.zero_add]
  step
  rw [pushLoop, if_pos (by omega)]
  simp only [bind_assoc]
  rw [show 0 + (2 - 0 - 1) / 2 = 0 from rfl]
  step
  rw [if_pos h]
  unfold asg wr
  simp only [bind_assoc]
  rw [show 0 + (2 - 0) = 2 from rfl]
  steps
  rw [show (2 - 0 - 1) / 2 = 0 from rfl, pushLoop, if_neg (by omega)]
  steps
  apply Triple.ret
  cancel

theorem pqPush_three (hk : k ≠ .list) {l : Loc} {x y z : V} (hl : l.1 ≠ 0) (hlt : F comp x z = true) :
    Triple True (isPq E True k a ty comp [x, y] ∗ pts l (.obj (some z))) (pqPush E F a l)
      (fun _ => isPq E True k a ty comp [z, y, x] ∗ pts l (.obj (some z))) := by
  refine Triple.fact (p := a ≠ 0) (fun h hh => pq_ne hh) ?_
  intro ha
  unfold pqPush isPq
  rw [if_neg (by simp [ha, hl])]
  xintro b
  step
  refine Triple.pre (P' := isBack E True k b ty [x, y] ∗ (pts l (.obj (some z)) ∗ (blk a 2 ∗ fld a 1 b ∗ fld a 2 comp))) (by cancel) ?_
  apply ops_spec
  call (bpushBack_spec (nf := True) (E := E) (k := k) (b := b) (ty := ty) (ws := [x, y]) (v := z) hl)
  intro _
  xintro ws1 h1
  obtain rfl := h1.resolve_right (fun h => h.1 trivial)
  call (brange_spec (E := E) (nf := True) (b := b) (ty := ty) (ws := [x, y] ++ [z]) hk)
  intro r
  xintro c G hc
  rw [hc.1]
  step
  unfold heapCall
  simp only [List.cons_append, List.nil_append, List.length_cons, List.length_nil] at hc ⊢
  call (pushHeap_three (nf := True) (c := c) (x := x) (y := y) (z := z) hlt)
  intro _
  xexists b
  refine ent_trans (Q := (seg c 0 [z, y, x] ∗ G) ∗ (blk a 2 ∗ fld a 1 b ∗ fld a 2 comp) ∗ pts l (.obj (some z))) (by cancel) ?_
  refine ent_trans (sep_mono (hc.2 [z, y, x] rfl) (ent_refl _)) ?_
  cancel

theorem ops_spec' : Triple nf (isBack E nf k b ty ws) (ops E b) (fun r => ⌜r = wrap (k.impl E)⌝ ∗ isBack E nf k b ty ws) := by
  rw [← bind_pure (ops E b)]
  refine Triple.pre (P' := isBack E nf k b ty ws ∗ emp) (by cancel) ?_
  apply ops_spec
  apply Triple.ret
  cancel

/-- `c_queue_pop` on a queue with a vector backend calls a NULL pointer -/
theorem popF_bad : Bad (isAd E True .vector a ty ws ∗ R) (popF E a) := by
  refine Bad.fact (p := a ≠ 0) (fun h hh => ad_ne hh) ?_
  intro ha
  unfold popF isAd
  rw [if_neg ha]
  apply Bad.ex
  intro b
  have h1 : Triple True (fld (V := V) a 1 b) (ldN (a, 1)) (fun r => ⌜r = b⌝ ∗ fld a 1 b) := by
    rw [← bind_pure (ldN (a, 1))]
    step
    apply Triple.ret
    cancel
  refine Bad.pre (P' := fld a 1 b ∗ (isBack E True .vector b ty ws ∗ (blk a 1 ∗ R))) (by cancel) ?_
  refine Bad.bind h1 ?_
  intro r
  rw [sep_assoc]
  apply Bad.pure_left
  rintro rfl
  rw [sep_left_comm]
  refine Bad.bind ops_spec' ?_
  intro o
  rw [sep_assoc]
  apply Bad.pure_left
  rintro rfl
  intro s _ _
  rfl

end CC.Adapter
