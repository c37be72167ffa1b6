import Verif.Adapter.History
import Verif.Props.CIterSort
import Verif.Props.CIterAll
import Verif.Core.Safe
/-!
# Priority queues with the iterator objects the code uses

In Verif/Adapter/Model.lean the iterators of `c_priority_queue_push` and `c_priority_queue_pop` are local values.  In the code they are heap copies made by the backend's `begin` and
`end`, and the heap algorithms work on iterator objects; this file models that.
-/
namespace CC.Adapter
open CC CC.Tac CC.Algo CC.Iter
variable {V α β : Type}

/-- the kind of the container behind a table of operations -/
def kindAt : Nat → Kind
  | 1 => .list
  | 2 => .vector
  | _ => .deque

theorem kindAt_addr (k : Kind) : kindAt k.addr = k := by cases k <;> rfl

/-- the iterator struct returned by `c_list_begin`/`c_list_end` c_list.c:642-658, `c_vector_begin`/`c_vector_end` c_vector.c:620-636, `c_deque_begin`/`c_deque_end` c_deque.c:717-733: its kind, element
type and payload (the assertion on the container included) -/
def endIter (k : Kind) (impl : Addr) (last : Bool) : M V (Iter.Kind × Nat × Pay) := do
  cassert (impl != 0)
  match k with
  | .list => do
    let n ← if last then CList.end_ impl else CList.begin_ impl
    let ty ← ldN (impl, 2)
    pure (.list, ty, .node n)
  | .vector => do
    let ty ← ldN (impl, 4)
    let p ← if last then Vec.end_ impl else Vec.begin_ impl
    pure (.vec, ty, .pos p.1 p.2)
  | .deque => do
    let ty ← ldN (impl, 5)
    let p ← if last then Deq.end_ impl else Deq.begin_ impl
    pure (.deq, ty, .pos p.1 p.2)

/-- `C_ITER_COPY(iter, &first)` for a NULL `*iter`: `iter_alloc_and_copy`, c_list.c:63-69, c_vector.c:74-80, c_deque.c:86-92.  Simplification: the local struct `first` is not itself
in memory; its content is written into the new object. -/
def cloneIter (x : Iter.Kind × Nat × Pay) : M V Addr := do
  let q ← mallocS 5
  if q = 0 then pure 0 else do
  setIter q x.1 x.2.1 x.2.2
  pure q

/-- `backend_begin` and `backend_end` with `*iter == 0`, c_list.c:450-480, c_vector.c:384-414, c_deque.c:433-463 -/
def backendIter (c : Addr) (last : Bool) : M V Addr :=
  if c = 0 then pure 0 else do
  let t ← ldN (c, 1)
  if t = 0 then ub else do
  let impl ← ldN (c, 2)
  let x ← endIter (kindAt t) impl last
  cloneIter x

/-- a call of a heap algorithm with the comparison function at address `comp`: NULL makes it return at once (c_heap.c:190, 233) -/
def withComp (F : Nat → V → V → Bool) (comp : Nat) (f : (V → V → Bool) → M V Unit) : M V Unit :=
  if comp = 0 then pure () else f (F comp)

/-- `c_priority_queue_push`, c_priority_queue.c:92-106 -/
def pqPushI (E : Types V) (F : Nat → V → V → Bool) (Z : Nat → Nat) (a : Addr) (value : Loc) : M V Unit :=
  if a = 0 ∨ value.1 = 0 then pure () else do
  let b ← ldN (a, 1)
  let o ← ops E b
  o.pushBack b value
  let b ← ldN (a, 1)
  let first ← backendIter b false
  let last ← backendIter b true
  let comp ← ldN (a, 2)
  withComp F comp fun f => IAlgo.pushHeap Z first last f
  free first
  free last

/-- `c_priority_queue_pop`, c_priority_queue.c:108-122 -/
def pqPopI (E : Types V) (F : Nat → V → V → Bool) (Z : Nat → Nat) (a : Addr) : M V Unit :=
  if a = 0 then pure () else do
  let b ← ldN (a, 1)
  let first ← backendIter b false
  let last ← backendIter b true
  let comp ← ldN (a, 2)
  withComp F comp fun f => IAlgo.popHeap Z first last f
  let b ← ldN (a, 1)
  let o ← ops E b
  o.popBack b
  free first
  free last

/-- operations of a client, with its observations -/
def runPqOpI (E : Types V) (F : Nat → V → V → Bool) (Z : Nat → Nat) (a : Addr) : PqOp Loc → M V (Out V)
  | .push l => do
    pqPushI E F Z a l
    pure .done
  | .pop => do
    pqPopI E F Z a
    pure .done
  | o => runPqOp E F a o

variable {nf : Prop} {E : Types V} {k : Kind} {ws : List V} {b a ty comp : Nat} {Z : Nat → Nat} {F : Nat → V → V → Bool}

/-- the range of a backend's elements as a source of iterators -/
structure Opened (E : Types V) (nf : Prop) (k : Kind) (b ty : Nat) (Z : Nat → Nat) (ws : List V) (r : Src V) (S : HProp V) (impl : Nat) : Prop where
  ok : r.Ok True Z S
  rand : IAlgo.Rand S r
  len : r.len = ws.length
  fold : ∀ ws' : List V, ws'.length = ws.length → ((seg r.ref 0 ws' ∗ S ∗ blk b 2 ∗ fld b 1 k.addr ∗ fld b 2 impl) ⊢ₛ isBack E nf k b ty ws')
  first : ∀ G, Triple False (S ∗ G) (endIter k impl false) (fun x => ⌜x = (r.kind, r.ty, r.pay 0)⌝ ∗ S ∗ G)
  last : ∀ G, Triple False (S ∗ G) (endIter k impl true) (fun x => ⌜x = (r.kind, r.ty, r.pay r.len)⌝ ∗ S ∗ G)

theorem endIter_vec {last : Bool} {v bb cap n : Nat} (G : HProp V) :
    Triple False (IAlgo.vecS ty v bb cap n ∗ G) (endIter .vector v last) (fun x => ⌜x = (.vec, ty, .pos bb (if last then 1 + n else 1))⌝ ∗ IAlgo.vecS ty v bb cap n ∗ G) := by
  refine Triple.fact (p := v ≠ 0) (fun h hh => ?_) fun hv => ?_
  · unfold IAlgo.vecS Vec.vhdr at hh
    exact pts_ne_zero ((show _ ⊢ₛ _ by cancel) _ hh)
  unfold endIter
  have hca : (cassert (v != 0) : M V Unit) = pure () := by unfold cassert; rw [if_pos (by simpa using hv)]
  rw [hca]
  simp only [pure_bind]
  call (IAlgo.vecS_type (nf := False) (ty := ty) (v := v) (b := bb) (cap := cap) (n := n))
  intro t
  xintro ht
  subst ht
  cases last
  · simp only [Bool.false_eq_true, ↓reduceIte]
    call (IAlgo.vecS_begin (nf := False) (ty := t) (v := v) (b := bb) (cap := cap) (n := n))
    intro p
    xintro hp
    subst hp
    apply Triple.ret
    cancel
  · simp only [↓reduceIte]
    call (IAlgo.vecS_end (nf := False) (ty := t) (v := v) (b := bb) (cap := cap) (n := n))
    intro p
    xintro hp
    subst hp
    apply Triple.ret
    cancel

theorem endIter_deq {last : Bool} {v bb lo hi n : Nat} (G : HProp V) :
    Triple False (IAlgo.deqS ty v bb lo hi n ∗ G) (endIter .deque v last) (fun x => ⌜x = (.deq, ty, .pos bb (if last then 1 + lo + n else 1 + lo))⌝ ∗ IAlgo.deqS ty v bb lo hi n ∗ G) := by
  refine Triple.fact (p := v ≠ 0) (fun h hh => ?_) fun hv => ?_
  · unfold IAlgo.deqS Deq.dhdr at hh
    exact pts_ne_zero ((show _ ⊢ₛ _ by cancel) _ hh)
  unfold endIter
  have hca : (cassert (v != 0) : M V Unit) = pure () := by unfold cassert; rw [if_pos (by simpa using hv)]
  rw [hca]
  simp only [pure_bind]
  call (IAlgo.deqS_type (nf := False) (ty := ty) (v := v) (b := bb) (lo := lo) (hi := hi) (n := n))
  intro t
  xintro ht
  subst ht
  cases last
  · simp only [Bool.false_eq_true, ↓reduceIte]
    call (IAlgo.deqS_begin (nf := False) (ty := t) (v := v) (b := bb) (lo := lo) (hi := hi) (n := n))
    intro p
    xintro hp
    subst hp
    apply Triple.ret
    cancel
  · simp only [↓reduceIte]
    call (IAlgo.deqS_end (nf := False) (ty := t) (v := v) (b := bb) (lo := lo) (hi := hi) (n := n))
    intro p
    xintro hp
    subst hp
    apply Triple.ret
    cancel

theorem back_open (hk : k ≠ .list) (hty : ty ≠ 0) (hz : 0 < Z ty) (hb : ws.length * Z ty < 2 ^ 63) :
    isBack E nf k b ty ws ⊢ₛ hex fun p : Src V × HProp V × Nat => ⌜Opened E nf k b ty Z ws p.1 p.2.1 p.2.2⌝ ∗ seg p.1.ref 0 ws ∗ p.2.1 ∗ blk b 2 ∗ fld b 1 k.addr ∗ fld b 2 p.2.2 := by
  unfold isBack
  cases k with
  | list => exact absurd rfl hk
  | vector =>
    show (∃ₛ impl, blk b 2 ∗ fld b 1 2 ∗ fld b 2 impl ∗ vecRep E nf ty impl ws) ⊢ₛ _
    unfold vecRep
    xintro impl bb cap
    have hv := IAlgo.vec_view (V := V) (nf := nf) (t := E ty) (v := impl) (b := bb) (cap := cap) (n := ws.length) hty hz hb
    refine ent_ex_right (vecSrc impl bb ty ws.length, IAlgo.vecS ty impl bb cap ws.length, impl) ?_
    refine ent_pure_right ⟨hv.ok, IAlgo.vec_rand, rfl, fun ws' hl => ?_, endIter_vec, endIter_vec⟩ ?_
    · refine ent_trans ?_ (isBack_fold (k := .vector) (impl := impl))
      refine ent_trans ?_ (show (blk b 2 ∗ fld b 1 Kind.vector.addr ∗ fld b 2 impl ∗ Vec.isVec (nf := nf) (T := fun ty => plainOps (E ty)) (ty := ty) (plainSpec (E ty)) impl bb cap ws') ⊢ₛ _ from
        sep_mono (ent_refl _) (sep_mono (ent_refl _) (sep_mono (ent_refl _) (ent_ex_right bb (ent_ex_right cap (ent_refl _))))))
      have := hv.eq ws' hl
      rw [show Vec.isVec (nf := nf) (T := fun ty => plainOps (E ty)) (ty := ty) (plainSpec (E ty)) impl bb cap ws' = _ from this]
      cancel
    · rw [show Vec.isVec (nf := nf) (T := fun ty => plainOps (E ty)) (ty := ty) (plainSpec (E ty)) impl bb cap ws = _ from hv.eq ws rfl]
      show _ ⊢ₛ _ ∗ _ ∗ blk b 2 ∗ fld b 1 2 ∗ fld b 2 impl
      cancel
  | deque =>
    show (∃ₛ impl, blk b 2 ∗ fld b 1 3 ∗ fld b 2 impl ∗ deqRep E nf ty impl ws) ⊢ₛ _
    unfold deqRep
    xintro impl bb lo hi
    have hv := IAlgo.deq_view (V := V) (nf := nf) (t := E ty) (v := impl) (b := bb) (lo := lo) (hi := hi) (n := ws.length) hty hz hb
    refine ent_ex_right (deqSrc impl bb lo ty ws.length, IAlgo.deqS ty impl bb lo hi ws.length, impl) ?_
    refine ent_pure_right ⟨hv.ok, IAlgo.deq_rand, rfl, fun ws' hl => ?_, endIter_deq, endIter_deq⟩ ?_
    · refine ent_trans ?_ (isBack_fold (k := .deque) (impl := impl))
      refine ent_trans ?_ (show (blk b 2 ∗ fld b 1 Kind.deque.addr ∗ fld b 2 impl ∗ Deq.isDeq (nf := nf) (T := fun ty => plainOps (E ty)) (ty := ty) (plainSpec (E ty)) impl bb lo hi ws') ⊢ₛ _ from
        sep_mono (ent_refl _) (sep_mono (ent_refl _) (sep_mono (ent_refl _) (ent_ex_right bb (ent_ex_right lo (ent_ex_right hi (ent_refl _)))))))
      have := hv.eq ws' hl
      rw [show Deq.isDeq (nf := nf) (T := fun ty => plainOps (E ty)) (ty := ty) (plainSpec (E ty)) impl bb lo hi ws' = _ from this]
      cancel
    · rw [show Deq.isDeq (nf := nf) (T := fun ty => plainOps (E ty)) (ty := ty) (plainSpec (E ty)) impl bb lo hi ws = _ from hv.eq ws rfl]
      show _ ⊢ₛ _ ∗ _ ∗ blk b 2 ∗ fld b 1 3 ∗ fld b 2 impl
      cancel

/-- the backend object -/
abbrev bk (k : Kind) (b impl : Nat) : HProp V := blk b 2 ∗ fld b 1 k.addr ∗ fld b 2 impl

variable {r : Src V} {S G : HProp V} {impl : Nat}

theorem endIter_at (ho : Opened E nf k b ty Z ws r S impl) (last : Bool) (G : HProp V) :
    Triple False (S ∗ G) (endIter k impl last) (fun x => ⌜x = (r.kind, r.ty, r.pay (if last then r.len else 0))⌝ ∗ S ∗ G) := by
  cases last
  · exact ho.first G
  · exact ho.last G

theorem weaken {P : HProp V} {m : M V α} {Q : α → HProp V} {nf' : Prop} (h : Triple False P m Q) : Triple nf' P m Q := fun s F _ hs => h s F (fun h => h.elim) hs

/-- `backend_begin` / `backend_end` up to the allocation -/
theorem backendIter_eq (ho : Opened E nf k b ty Z ws r S impl) {last : Bool} {Q : Addr → HProp V} {nf' : Prop}
    (hk : Triple nf' (S ∗ bk k b impl ∗ G) (cloneIter (r.kind, r.ty, r.pay (if last then r.len else 0))) Q) :
    Triple nf' (S ∗ bk k b impl ∗ G) (backendIter b last) Q := by
  refine Triple.fact (p := b ≠ 0) (fun h hh => pts_ne_zero (l := (b, 0)) (v := .sz 2) ((show _ ⊢ₛ _ ∗ _ by unfold bk; unfold blk; cancel) _ hh)) fun hb => ?_
  unfold backendIter
  rw [if_neg hb]
  unfold bk
  step
  rw [if_neg (addr_ne k), kindAt_addr]
  step
  refine Triple.pre (P' := S ∗ (bk k b impl ∗ G)) (by unfold bk; cancel) ?_
  refine Triple.bind (weaken (endIter_at ho last _)) fun x => ?_
  apply Triple.pure_left
  rintro rfl
  exact hk

open CC.IAlgo (It)

/-- with enough memory `backend_begin` / `backend_end` deliver a new iterator at the first / behind the last element -/
theorem backendIter_cps (ho : Opened E nf k b ty Z ws r S impl) {last : Bool} {Q : β → HProp V} {K : Addr → M V β}
    (hk : ∀ q, q ≠ 0 → Triple True (It r q (if last then r.len else 0) ∗ S ∗ bk k b impl ∗ G) (K q) Q) :
    Triple True (S ∗ bk k b impl ∗ G) (backendIter b last >>= K) Q := by
  refine Triple.bind (Q := fun q => ⌜q ≠ 0⌝ ∗ It r q (if last then r.len else 0) ∗ S ∗ bk k b impl ∗ G) (backendIter_eq ho ?_) fun q => Triple.pure_left (hk q)
  unfold cloneIter
  have hle : (if last then r.len else 0) ≤ r.len := by split <;> omega
  refine Triple.fact (fun h hh => ho.ok.node0 h _ hh _ hle) fun h0 => ?_
  refine Triple.mallocG_spec (fun hn => absurd trivial hn) (fun q j hq => ?_)
  rw [if_neg hq]
  refine Triple.pre (P' := rawIt q ∗ S ∗ bk k b impl ∗ G) (by
    unfold rawIt
    xexists (List.range 5).map fun i => .num (j (i + 1))
    cancel) ?_
  refine setIter_cps ho.ok.ty0 h0 ?_
  apply Triple.ret
  exact ent_pure_right hq (ent_refl _)

/-- with an exhausted allocator they deliver NULL -/
theorem backendIter_exhausted (ho : Opened E nf k b ty Z ws r S impl) {last : Bool} :
    Exhausted (S ∗ bk k b impl ∗ G) (backendIter b last) (fun q => ⌜q = 0⌝ ∗ S ∗ bk k b impl ∗ G) := by
  intro s hs hm
  have hb : b ≠ 0 := pts_ne_zero (l := (b, 0)) (v := .sz 2) ((show _ ⊢ₛ _ ∗ _ by unfold bk; unfold blk; cancel) _ hm)
  have hpre : Triple False (S ∗ bk k b impl ∗ G) (do
      let t ← ldN (b, 1)
      if t = 0 then ub else do
      let impl ← ldN (b, 2)
      endIter (V := V) (kindAt t) impl last) (fun x => ⌜x = (r.kind, r.ty, r.pay (if last then r.len else 0))⌝ ∗ S ∗ bk k b impl ∗ G) := by
    unfold bk
    step
    rw [if_neg (addr_ne k), kindAt_addr]
    step
    refine Triple.pre (P' := S ∗ (bk k b impl ∗ G)) (by unfold bk; cancel) ?_
    refine Triple.post (endIter_at ho last _) fun x => ?_
    unfold bk
    cancel
  have heq : backendIter (V := V) b last = ((do
      let t ← ldN (b, 1)
      if t = 0 then ub else do
      let impl ← ldN (b, 2)
      endIter (V := V) (kindAt t) impl last) >>= cloneIter) := by
    unfold backendIter
    rw [if_neg hb, bind_assoc]
    refine bind_congr fun t => ?_
    split
    · rfl
    · rw [bind_assoc]
  rw [heq]
  refine (Exhausted.bind (R := fun q => ⌜q = 0⌝ ∗ S ∗ bk k b impl ∗ G) (Exhausted.of_triple hpre) fun x => Exhausted.pure_left fun _ => ?_) s hs hm
  unfold cloneIter
  refine Exhausted.bind Exhausted.malloc fun q => Exhausted.pure_left fun hq => ?_
  rw [if_pos hq]
  refine Exhausted.of_triple (Triple.ret ?_)
  exact ent_pure_right rfl (ent_refl _)

theorem pq_open (hk : k ≠ .list) (hty : ty ≠ 0) (hz : 0 < Z ty) (hb : ws.length * Z ty < 2 ^ 63) {m : M V β} {Q : β → HProp V} {nf' : Prop} {H : HProp V}
    (h : ∀ (r : Src V) (S : HProp V) (impl : Nat), Opened E nf k b ty Z ws r S impl → Triple nf' (S ∗ bk k b impl ∗ seg r.ref 0 ws ∗ H) m Q) :
    Triple nf' (isBack E nf k b ty ws ∗ H) m Q := by
  refine Triple.pre (sep_mono (back_open hk hty hz hb) (ent_refl _)) ?_
  refine Triple.ex_left' fun p => ?_
  rw [sep_assoc]
  apply Triple.pure_left
  intro ho
  refine Triple.pre ?_ (h p.1 p.2.1 p.2.2 ho)
  unfold bk
  cancel

theorem pushHeap_open (ho : Opened E True k b ty Z ws r S impl) {x y : Nat} {f : V → V → Bool} (hsw : StrictWeak f) (hh : ∃ X w, ws = X ++ [w] ∧ IsHeap f X) :
    Triple True (It r y r.len ∗ It r x 0 ∗ S ∗ bk k b impl ∗ seg r.ref 0 ws ∗ G) (IAlgo.pushHeap Z x y f)
      (fun _ => ∃ₛ ws', ⌜ws'.Perm ws ∧ IsHeap f ws'⌝ ∗ It r y r.len ∗ It r x 0 ∗ isBack E True k b ty ws' ∗ G) := by
  obtain ⟨X, w, rfl, hh⟩ := hh
  have h := IAlgo.C64_push_heap (A := It r x 0 ∗ It r y r.len ∗ emp) (i := 0) hsw w hh (IAlgo.spans_whole ho.ok ho.len.symm) ho.rand
  refine Triple.pre (P' := (seg r.ref 0 (X ++ [w]) ∗ (It r x 0 ∗ It r y r.len ∗ emp) ∗ S) ∗ (bk k b impl ∗ G)) (by cancel) ?_
  refine Triple.post (Triple.frame h) fun _ => ?_
  xintro ws' h'
  refine ent_ex_right (ws') ?_
  refine ent_pure_right h' ?_
  refine ent_trans (Q := (seg r.ref 0 ws' ∗ S ∗ bk k b impl) ∗ (It r y r.len ∗ It r x 0 ∗ G)) (by cancel) ?_
  refine ent_trans (sep_mono (ho.fold ws' h'.1.length_eq) (ent_refl _)) ?_
  cancel

theorem popHeap_open (ho : Opened E True k b ty Z ws r S impl) {x y : Nat} {f : V → V → Bool} (hsw : StrictWeak f) (hh : IsHeap f ws) :
    Triple True (It r y r.len ∗ It r x 0 ∗ S ∗ bk k b impl ∗ seg r.ref 0 ws ∗ G) (IAlgo.popHeap Z x y f)
      (fun _ => ∃ₛ ws', ⌜ws'.dropLast.Perm ws.tail ∧ IsHeap f ws'.dropLast⌝ ∗ It r y r.len ∗ It r x 0 ∗ isBack E True k b ty ws' ∗ G) := by
  have hs : IAlgo.Spans Z S (It r x 0 ∗ It r y r.len ∗ emp) r x y 0 ws.length := IAlgo.spans_whole ho.ok ho.len.symm
  have hx := ho.rand
  have h : Triple True (seg r.ref 0 ws ∗ (It r x 0 ∗ It r y r.len ∗ emp) ∗ S) (IAlgo.popHeap Z x y f)
      (fun _ => ∃ₛ ws', ⌜ws'.length = ws.length ∧ ws'.dropLast.Perm ws.tail ∧ IsHeap f ws'.dropLast⌝ ∗ seg r.ref 0 ws' ∗ (It r x 0 ∗ It r y r.len ∗ emp) ∗ S) := by
    refine IAlgo.lift_seg (f := fun ws' => ws') hs.le (IAlgo.popHeap_ref hs.ok (Nat.le_add_right ..) hs.le hs.fst hs.lst hx.bidir hx.cate hx.real hx.mutable) ?_
    cases ws with
    | nil =>
      unfold Algo.popHeap
      rw [if_pos (by simp)]
      apply Triple.ret
      refine ent_ex_right ([]) ?_
      refine ent_pure_right ⟨rfl, List.Perm.refl _, ?_⟩ (by cancel)
      intro j a b h0 ha hb
      simp at ha
    | cons w ws =>
      refine Triple.post (popHeap_spec (nf := True) (i := 0) hsw hh) fun _ => ?_
      xintro ws' h'
      refine ent_ex_right (ws' ++ [w]) ?_
      refine ent_pure_right ⟨by simp [h'.1.length_eq], ?_, ?_⟩ (ent_refl _)
      · rw [List.dropLast_concat]; exact h'.1
      · rw [List.dropLast_concat]; exact h'.2
  refine Triple.pre (P' := (seg r.ref 0 ws ∗ (It r x 0 ∗ It r y r.len ∗ emp) ∗ S) ∗ (bk k b impl ∗ G)) (by cancel) ?_
  refine Triple.post (Triple.frame h) fun _ => ?_
  xintro ws' h'
  refine ent_ex_right (ws') ?_
  refine ent_pure_right h'.2 ?_
  refine ent_trans (Q := (seg r.ref 0 ws' ∗ S ∗ bk k b impl) ∗ (It r y r.len ∗ It r x 0 ∗ G)) (by cancel) ?_
  refine ent_trans (sep_mono (ho.fold ws' h'.1) (ent_refl _)) ?_
  cancel

/-- `c_priority_queue_push` with enough memory -/
theorem pqPushI_spec (hk : k ≠ .list) (hty : ty ≠ 0) (hz : 0 < Z ty) (hb : (ws.length + 1) * Z ty < 2 ^ 63) (hc : comp ≠ 0) (hsw : StrictWeak (F comp)) {l : Loc} {v : V} (hl : l.1 ≠ 0)
    (hh : IsHeap (F comp) ws) :
    Triple True (isPq E True k a ty comp ws ∗ pts l (.obj (some v))) (pqPushI E F Z a l)
      (fun _ => ∃ₛ ws', ⌜ws'.Perm (v :: ws) ∧ IsHeap (F comp) ws'⌝ ∗ isPq E True k a ty comp ws' ∗ pts l (.obj (some v))) := by
  refine Triple.fact (p := a ≠ 0) (fun h hh => pq_ne hh) ?_
  intro ha
  unfold pqPushI isPq
  rw [if_neg (by simp [ha, hl])]
  xintro b
  step
  refine Triple.pre (P' := isBack E True k b ty ws ∗ (pts l (.obj (some v)) ∗ (blk a 2 ∗ fld a 1 b ∗ fld a 2 comp))) (by cancel) ?_
  apply ops_spec
  call (bpushBack_spec (E := E) (k := k) (b := b) (ty := ty) (ws := ws) (v := v) hl)
  intro _
  xintro ws1 h1
  have h1 : ws1 = ws ++ [v] := h1.resolve_right fun h => h.1 trivial
  subst h1
  step
  refine Triple.pre (P' := isBack E True k b ty (ws ++ [v]) ∗ (pts l (.obj (some v)) ∗ blk a 2 ∗ fld a 1 b ∗ fld a 2 comp)) (by cancel) ?_
  refine pq_open hk hty hz (by simpa using hb) fun r S impl ho => ?_
  refine backendIter_cps ho fun x hx => ?_
  refine Triple.pre (P' := S ∗ bk k b impl ∗ (It r x 0 ∗ seg r.ref 0 (ws ++ [v]) ∗ pts l (.obj (some v)) ∗ blk a 2 ∗ fld a 1 b ∗ fld a 2 comp)) (by simp only [Bool.false_eq_true, ↓reduceIte]; cancel) ?_
  refine backendIter_cps ho fun y hy => ?_
  simp only [↓reduceIte]
  step
  unfold withComp
  rw [if_neg hc]
  refine Triple.pre (P' := It r y r.len ∗ It r x 0 ∗ S ∗ bk k b impl ∗ seg r.ref 0 (ws ++ [v]) ∗ (pts l (.obj (some v)) ∗ blk a 2 ∗ fld a 1 b ∗ fld a 2 comp)) (by cancel) ?_
  refine Triple.bind (pushHeap_open ho hsw ⟨ws, v, rfl, hh⟩) fun _ => ?_
  xintro ws' h'
  refine IAlgo.free_at (r := r) (x := x) (i := 0) (R := It r y r.len ∗ isBack E True k b ty ws' ∗ pts l (.obj (some v)) ∗ blk a 2 ∗ fld a 1 b ∗ fld a 2 comp) (by cancel) ?_
  rw [← bind_pure (free y)]
  refine IAlgo.free_at (r := r) (x := y) (i := r.len) (R := isBack E True k b ty ws' ∗ pts l (.obj (some v)) ∗ blk a 2 ∗ fld a 1 b ∗ fld a 2 comp) (by cancel) ?_
  apply Triple.ret
  refine ent_ex_right (ws') ?_
  refine ent_pure_right ⟨h'.1.trans List.perm_append_comm, h'.2⟩ ?_
  xexists b
  cancel

/-- `c_priority_queue_pop` with enough memory -/
theorem pqPopI_spec (hk : k ≠ .list) (hty : ty ≠ 0) (hz : 0 < Z ty) (hb : ws.length * Z ty < 2 ^ 63) (hc : comp ≠ 0) (hsw : StrictWeak (F comp)) (hh : IsHeap (F comp) ws) :
    Triple True (isPq E True k a ty comp ws) (pqPopI E F Z a)
      (fun _ => ∃ₛ ws', ⌜ws'.Perm ws.tail ∧ IsHeap (F comp) ws'⌝ ∗ isPq E True k a ty comp ws') := by
  refine Triple.fact (p := a ≠ 0) (fun h hh => pq_ne (P := emp) (by rw [sep_emp]; exact hh)) ?_
  intro ha
  unfold pqPopI isPq
  rw [if_neg ha]
  xintro b
  try rw [sep_emp]
  step
  refine Triple.pre (P' := isBack E True k b ty ws ∗ (blk a 2 ∗ fld a 1 b ∗ fld a 2 comp)) (by cancel) ?_
  refine pq_open hk hty hz hb fun r S impl ho => ?_
  refine backendIter_cps ho fun x hx => ?_
  refine Triple.pre (P' := S ∗ bk k b impl ∗ (It r x 0 ∗ seg r.ref 0 ws ∗ blk a 2 ∗ fld a 1 b ∗ fld a 2 comp)) (by simp only [Bool.false_eq_true, ↓reduceIte]; cancel) ?_
  refine backendIter_cps ho fun y hy => ?_
  simp only [↓reduceIte]
  step
  unfold withComp
  rw [if_neg hc]
  refine Triple.pre (P' := It r y r.len ∗ It r x 0 ∗ S ∗ bk k b impl ∗ seg r.ref 0 ws ∗ (blk a 2 ∗ fld a 1 b ∗ fld a 2 comp)) (by cancel) ?_
  refine Triple.bind (popHeap_open ho hsw hh) fun _ => ?_
  xintro ws' h'
  step
  refine Triple.pre (P' := isBack E True k b ty ws' ∗ (It r x 0 ∗ It r y r.len ∗ blk a 2 ∗ fld a 1 b ∗ fld a 2 comp)) (by cancel) ?_
  apply ops_spec
  call bpopBack_spec
  intro _
  refine IAlgo.free_at (r := r) (x := x) (i := 0) (R := It r y r.len ∗ isBack E True k b ty ws'.dropLast ∗ blk a 2 ∗ fld a 1 b ∗ fld a 2 comp) (by cancel) ?_
  rw [← bind_pure (free y)]
  refine IAlgo.free_at (r := r) (x := y) (i := r.len) (R := isBack E True k b ty ws'.dropLast ∗ blk a 2 ∗ fld a 1 b ∗ fld a 2 comp) (by cancel) ?_
  apply Triple.ret
  refine ent_ex_right (ws'.dropLast) ?_
  refine ent_pure_right h' ?_
  xexists b
  cancel

end CC.Adapter
