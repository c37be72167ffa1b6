import Verif.Adapter.History
/-!
# Adapters with different backends; priority queues on lists

`c_stack_swap` (c_queue_swap, c_priority_queue_swap) hands both backend objects to the `swap` of the first one, which takes the other for a container of its own kind.
-/
namespace CC.Adapter
open CC CC.Tac CC.Algo
variable {V α β : Type} {E : Types V} {nf : Prop} {k k2 : Kind} {a a2 b b2 ty ty2 : Nat} {ws ws2 : List V} {R : HProp V}

/-- the header fields of a container of kind `k`, as they lie in the memory -/
def Layout (k : Kind) (i : Nat) (h : Heap V) : Prop :=
  i ≠ 0 ∧ match k with
  | .list => (∃ n, h (i, 1) = some (.num n)) ∧ (∃ n, h (i, 2) = some (.num n))
  | .vector => (∃ p q, h (i, 1) = some (.ptr p q)) ∧ (∃ p q, h (i, 2) = some (.ptr p q)) ∧ (∃ p q, h (i, 3) = some (.ptr p q)) ∧ (∃ n, h (i, 4) = some (.num n))
  | .deque => (∃ p q, h (i, 1) = some (.ptr p q)) ∧ (∃ p q, h (i, 2) = some (.ptr p q)) ∧ (∃ p q, h (i, 3) = some (.ptr p q)) ∧ (∃ p q, h (i, 4) = some (.ptr p q)) ∧
      (∃ n, h (i, 5) = some (.num n))

theorem rep_layout {i : Nat} {h : Heap V} (hh : ((kindSpec E nf k).rep ty i ws ∗ R) h) : Layout k i h := by
  cases k with
  | list =>
    have he : ((kindSpec E nf .list).rep ty i ws ∗ R) ⊢ₛ ∃ₛ s, ∃ₛ G, blk i 2 ∗ fld i 1 s ∗ fld i 2 ty ∗ G := by
      show (listRep ty i ws ∗ R) ⊢ₛ _
      unfold listRep CList.isList CList.hdr
      xintro s xs h
      xexists s, (blk s 3 ∗ fld s 3 0 ∗ CList.path s (CList.nodes xs ++ [s]) ∗ CList.elts xs ∗ R)
      cancel
    obtain ⟨s, G, h1⟩ := he _ hh
    exact ⟨pts_ne_zero h1, ⟨_, cell_of (R := blk i 2 ∗ fld i 2 ty ∗ G) h1 (by cancel)⟩, ⟨_, cell_of (R := blk i 2 ∗ fld i 1 s ∗ G) h1 (by cancel)⟩⟩
  | vector =>
    have he : ((kindSpec E nf .vector).rep ty i ws ∗ R) ⊢ₛ ∃ₛ b, ∃ₛ cap, ∃ₛ G, blk i 4 ∗ pts (i, 1) (.ptr b 1) ∗ pts (i, 2) (.ptr b (1 + ws.length)) ∗ pts (i, 3) (.ptr b (1 + cap)) ∗ fld i 4 ty ∗ G := by
      show (vecRep E nf ty i ws ∗ R) ⊢ₛ _
      unfold vecRep Vec.isVec Vec.vhdr
      xintro b cap h
      xexists b, cap, (Vec.buf b cap ∗ live (plainSpec (nf := nf) (E ty)) b 1 ws ∗ raws b (1 + ws.length) (cap - ws.length) ∗ R)
      cancel
    obtain ⟨b, cap, G, h1⟩ := he _ hh
    exact ⟨pts_ne_zero h1, ⟨_, _, cell_of (R := blk i 4 ∗ pts (i, 2) (.ptr b (1 + ws.length)) ∗ pts (i, 3) (.ptr b (1 + cap)) ∗ fld i 4 ty ∗ G) h1 (by cancel)⟩,
      ⟨_, _, cell_of (R := blk i 4 ∗ pts (i, 1) (.ptr b 1) ∗ pts (i, 3) (.ptr b (1 + cap)) ∗ fld i 4 ty ∗ G) h1 (by cancel)⟩,
      ⟨_, _, cell_of (R := blk i 4 ∗ pts (i, 1) (.ptr b 1) ∗ pts (i, 2) (.ptr b (1 + ws.length)) ∗ fld i 4 ty ∗ G) h1 (by cancel)⟩,
      ⟨_, cell_of (R := blk i 4 ∗ pts (i, 1) (.ptr b 1) ∗ pts (i, 2) (.ptr b (1 + ws.length)) ∗ pts (i, 3) (.ptr b (1 + cap)) ∗ G) h1 (by cancel)⟩⟩
  | deque =>
    have he : ((kindSpec E nf .deque).rep ty i ws ∗ R) ⊢ₛ ∃ₛ b, ∃ₛ p2, ∃ₛ p3, ∃ₛ p4, ∃ₛ G, blk i 5 ∗ pts (i, 1) (.ptr b 1) ∗ pts (i, 2) (.ptr b p2) ∗ pts (i, 3) (.ptr b p3) ∗
        pts (i, 4) (.ptr b p4) ∗ fld i 5 ty ∗ G := by
      show (deqRep E nf ty i ws ∗ R) ⊢ₛ _
      unfold deqRep Deq.isDeq Deq.dhdr
      xintro b lo hi
      xexists b, (1 + lo), (1 + lo + ws.length), (1 + lo + ws.length + hi), (Vec.buf b (lo + ws.length + hi) ∗ raws b 1 lo ∗ live (plainSpec (nf := nf) (E ty)) b (1 + lo) ws ∗ raws b (1 + lo + ws.length) hi ∗ R)
      cancel
    obtain ⟨b, p2, p3, p4, G, h1⟩ := he _ hh
    exact ⟨pts_ne_zero h1, ⟨_, _, cell_of (R := blk i 5 ∗ pts (i, 2) (.ptr b p2) ∗ pts (i, 3) (.ptr b p3) ∗ pts (i, 4) (.ptr b p4) ∗ fld i 5 ty ∗ G) h1 (by cancel)⟩,
      ⟨_, _, cell_of (R := blk i 5 ∗ pts (i, 1) (.ptr b 1) ∗ pts (i, 3) (.ptr b p3) ∗ pts (i, 4) (.ptr b p4) ∗ fld i 5 ty ∗ G) h1 (by cancel)⟩,
      ⟨_, _, cell_of (R := blk i 5 ∗ pts (i, 1) (.ptr b 1) ∗ pts (i, 2) (.ptr b p2) ∗ pts (i, 4) (.ptr b p4) ∗ fld i 5 ty ∗ G) h1 (by cancel)⟩,
      ⟨_, _, cell_of (R := blk i 5 ∗ pts (i, 1) (.ptr b 1) ∗ pts (i, 2) (.ptr b p2) ∗ pts (i, 3) (.ptr b p3) ∗ fld i 5 ty ∗ G) h1 (by cancel)⟩,
      ⟨_, cell_of (R := blk i 5 ∗ pts (i, 1) (.ptr b 1) ∗ pts (i, 2) (.ptr b p2) ∗ pts (i, 3) (.ptr b p3) ∗ pts (i, 4) (.ptr b p4) ∗ G) h1 (by cancel)⟩⟩

theorem run_ldP {s : Mem V} {l : Loc} {p q : Nat} {K : Addr × Nat → M V β} (h : s.cells l = some (.ptr p q)) : (ldP l >>= K) s = K (p, q) s.bump := by
  simp [ldP, load, Bind.bind, StateT.bind, ExceptT.bind, ExceptT.mk, Option.bind, ExceptT.bindCont, h,
    get, getThe, MonadStateOf.get, StateT.get, set, StateT.set, Pure.pure, StateT.pure, ExceptT.pure]

theorem run_ldN_ptr {s : Mem V} {l : Loc} {p q : Nat} {K : Nat → M V β} (h : s.cells l = some (.ptr p q)) : (ldN l >>= K) s = some (.error .ub) := by
  simp [ldN, load, Bind.bind, StateT.bind, ExceptT.bind, ExceptT.mk, Option.bind, ExceptT.bindCont, h, ub, fault,
    get, getThe, MonadStateOf.get, StateT.get, set, StateT.set, Pure.pure, StateT.pure, ExceptT.pure]

theorem run_ldP_num {s : Mem V} {l : Loc} {n : Nat} {K : Addr × Nat → M V β} (h : s.cells l = some (.num n)) : (ldP l >>= K) s = some (.error .ub) := by
  simp [ldP, load, Bind.bind, StateT.bind, ExceptT.bind, ExceptT.mk, Option.bind, ExceptT.bindCont, h, ub, fault,
    get, getThe, MonadStateOf.get, StateT.get, set, StateT.set, Pure.pure, StateT.pure, ExceptT.pure]

/-- the `swap` of a container on containers of different kinds reads a pointer where there is an integer or vice versa -/
theorem impl_swap_bad {i j : Nat} {s : Mem V} (hk : k ≠ k2) (hi : Layout k i s.cells) (hj : Layout k2 j s.cells) : (k.impl E).swap i j s = some (.error .ub) := by
  obtain ⟨hi0, hi⟩ := hi
  obtain ⟨hj0, hj⟩ := hj
  have h0 : ¬ (i = 0 ∨ j = 0) := by simp [hi0, hj0]
  cases k with
  | list =>
    obtain ⟨⟨n1, h1⟩, ⟨n2, h2⟩⟩ := hi
    show CList.swap i j s = _
    unfold CList.swap
    rw [if_neg h0, run_ldN h1, run_ldN (s := s.bump) h2]
    cases k2 with
    | list => exact absurd rfl hk
    | vector => obtain ⟨⟨p, q, h3⟩, _⟩ := hj; exact run_ldN_ptr (s := s.bump.bump) h3
    | deque => obtain ⟨⟨p, q, h3⟩, _⟩ := hj; exact run_ldN_ptr (s := s.bump.bump) h3
  | vector =>
    obtain ⟨⟨_, _, h1⟩, ⟨_, _, h2⟩, ⟨_, _, h3⟩, ⟨_, h4⟩⟩ := hi
    show Vec.swap i j s = _
    unfold Vec.swap
    rw [if_neg h0, run_ldP h1, run_ldP (s := s.bump) h2, run_ldP (s := s.bump.bump) h3, run_ldN (s := s.bump.bump.bump) h4]
    cases k2 with
    | list => obtain ⟨⟨_, h5⟩, _⟩ := hj; exact run_ldP_num (s := s.bump.bump.bump.bump) h5
    | vector => exact absurd rfl hk
    | deque =>
      obtain ⟨⟨_, _, h1⟩, ⟨_, _, h2⟩, ⟨_, _, h3⟩, ⟨_, _, h4⟩, _⟩ := hj
      rw [run_ldP (s := s.bump.bump.bump.bump) h1, run_ldP (s := s.bump.bump.bump.bump.bump) h2, run_ldP (s := s.bump.bump.bump.bump.bump.bump) h3]
      exact run_ldN_ptr (s := s.bump.bump.bump.bump.bump.bump.bump) h4
  | deque =>
    obtain ⟨⟨_, _, h1⟩, ⟨_, _, h2⟩, ⟨_, _, h3⟩, ⟨_, _, h4⟩, ⟨_, h5⟩⟩ := hi
    show Deq.swap i j s = _
    unfold Deq.swap
    rw [if_neg h0, run_ldP h1, run_ldP (s := s.bump) h2, run_ldP (s := s.bump.bump) h3, run_ldP (s := s.bump.bump.bump) h4, run_ldN (s := s.bump.bump.bump.bump) h5]
    cases k2 with
    | list => obtain ⟨⟨_, h6⟩, _⟩ := hj; exact run_ldP_num (s := s.bump.bump.bump.bump.bump) h6
    | vector =>
      obtain ⟨⟨_, _, h1⟩, ⟨_, _, h2⟩, ⟨_, _, h3⟩, ⟨_, h4⟩⟩ := hj
      rw [run_ldP (s := s.bump.bump.bump.bump.bump) h1, run_ldP (s := s.bump.bump.bump.bump.bump.bump) h2, run_ldP (s := s.bump.bump.bump.bump.bump.bump.bump) h3]
      exact run_ldP_num (s := s.bump.bump.bump.bump.bump.bump.bump.bump) h4
    | deque => exact absurd rfl hk

/-- swapping two adapters with backends of different kinds is undefined behaviour -/
theorem swap_mixed_bad (hk : k ≠ k2) : Bad (isAd E True k a ty ws ∗ isAd E True k2 a2 ty2 ws2 ∗ R) (swap E a a2) := by
  intro s _ hs
  have he : (isAd E True k a ty ws ∗ isAd E True k2 a2 ty2 ws2 ∗ R) ⊢ₛ ∃ₛ b, ∃ₛ b2, ∃ₛ i, ∃ₛ j, (kindSpec E True k).rep ty i ws ∗ (kindSpec E True k2).rep ty2 j ws2 ∗
      fld a 1 b ∗ fld a2 1 b2 ∗ fld b 1 k.addr ∗ fld b 2 i ∗ fld b2 2 j ∗ blk a 1 ∗ blk a2 1 ∗ blk b 2 ∗ blk b2 2 ∗ fld b2 1 k2.addr ∗ R := by
    unfold isAd isBack
    xintro b i b2 j
    xexists b, b2, i, j
    cancel
  obtain ⟨b, b2, i, j, h⟩ := he _ hs
  have hi : Layout k i s.cells := rep_layout h
  have hj : Layout k2 j s.cells := rep_layout (E := E) (nf := True) (k := k2) (ty := ty2) (ws := ws2) (by rw [sep_left_comm] at h; exact h)
  generalize (kindSpec E True k).rep ty i ws = P1 at h
  generalize (kindSpec E True k2).rep ty2 j ws2 = P2 at h
  have c1 : s.cells (a, 1) = some (.num b) := cell_of (R := P1 ∗ P2 ∗ fld a2 1 b2 ∗ fld b 1 k.addr ∗ fld b 2 i ∗ fld b2 2 j ∗ blk a 1 ∗ blk a2 1 ∗ blk b 2 ∗ blk b2 2 ∗ fld b2 1 k2.addr ∗ R) h (by cancel)
  have c2 : s.cells (a2, 1) = some (.num b2) := cell_of (R := P1 ∗ P2 ∗ fld a 1 b ∗ fld b 1 k.addr ∗ fld b 2 i ∗ fld b2 2 j ∗ blk a 1 ∗ blk a2 1 ∗ blk b 2 ∗ blk b2 2 ∗ fld b2 1 k2.addr ∗ R) h (by cancel)
  have c3 : s.cells (b, 1) = some (.num k.addr) := cell_of (R := P1 ∗ P2 ∗ fld a 1 b ∗ fld a2 1 b2 ∗ fld b 2 i ∗ fld b2 2 j ∗ blk a 1 ∗ blk a2 1 ∗ blk b 2 ∗ blk b2 2 ∗ fld b2 1 k2.addr ∗ R) h (by cancel)
  have c4 : s.cells (b, 2) = some (.num i) := cell_of (R := P1 ∗ P2 ∗ fld a 1 b ∗ fld a2 1 b2 ∗ fld b 1 k.addr ∗ fld b2 2 j ∗ blk a 1 ∗ blk a2 1 ∗ blk b 2 ∗ blk b2 2 ∗ fld b2 1 k2.addr ∗ R) h (by cancel)
  have c5 : s.cells (b2, 2) = some (.num j) := cell_of (R := P1 ∗ P2 ∗ fld a 1 b ∗ fld a2 1 b2 ∗ fld b 1 k.addr ∗ fld b 2 i ∗ blk a 1 ∗ blk a2 1 ∗ blk b 2 ∗ blk b2 2 ∗ fld b2 1 k2.addr ∗ R) h (by cancel)
  have n1 : a ≠ 0 := pts_ne_zero (v := .sz 1) (show (blk a 1 ∗ (P1 ∗ P2 ∗ fld a 1 b ∗ fld a2 1 b2 ∗ fld b 1 k.addr ∗ fld b 2 i ∗ fld b2 2 j ∗ blk a2 1 ∗ blk b 2 ∗ blk b2 2 ∗ fld b2 1 k2.addr ∗ R)) s.cells from
    (show _ ⊢ₛ _ by cancel) _ h)
  have n2 : a2 ≠ 0 := pts_ne_zero (v := .sz 1) (show (blk a2 1 ∗ (P1 ∗ P2 ∗ fld a 1 b ∗ fld a2 1 b2 ∗ fld b 1 k.addr ∗ fld b 2 i ∗ fld b2 2 j ∗ blk a 1 ∗ blk b 2 ∗ blk b2 2 ∗ fld b2 1 k2.addr ∗ R)) s.cells from
    (show _ ⊢ₛ _ by cancel) _ h)
  have n3 : b ≠ 0 := pts_ne_zero (v := .sz 2) (show (blk b 2 ∗ (P1 ∗ P2 ∗ fld a 1 b ∗ fld a2 1 b2 ∗ fld b 1 k.addr ∗ fld b 2 i ∗ fld b2 2 j ∗ blk a 1 ∗ blk a2 1 ∗ blk b2 2 ∗ fld b2 1 k2.addr ∗ R)) s.cells from
    (show _ ⊢ₛ _ by cancel) _ h)
  have n4 : b2 ≠ 0 := pts_ne_zero (v := .sz 2) (show (blk b2 2 ∗ (P1 ∗ P2 ∗ fld a 1 b ∗ fld a2 1 b2 ∗ fld b 1 k.addr ∗ fld b 2 i ∗ fld b2 2 j ∗ blk a 1 ∗ blk a2 1 ∗ blk b 2 ∗ fld b2 1 k2.addr ∗ R)) s.cells from
    (show _ ⊢ₛ _ by cancel) _ h)
  unfold swap ops
  rw [if_neg (by simp [n1, n2]), run_ldN c1, run_ldN (s := s.bump) c2, bind_assoc, run_ldN (s := s.bump.bump) c3, if_neg (addr_ne k), pure_bind, tables_addr]
  unfold wrap
  dsimp only
  rw [if_neg (by simp [n3, n4]), run_ldN (s := s.bump.bump.bump) c3, run_ldN (s := s.bump.bump.bump.bump) c4, run_ldN (s := s.bump.bump.bump.bump.bump) c5]
  exact bind_error (impl_swap_bad (s := s.bump.bump.bump.bump.bump.bump) hk hi hj)

/-- `m` stops at a failed assertion, from every memory with `P` and every allocator that does not fail -/
def Stops (P : HProp V) (m : M V α) : Prop := ∀ s : Mem V, (∀ t, s.orc t ≠ 0) → P s.cells → m s = some (.error .abort)

theorem Stops.bind {P F : HProp V} {m : M V α} {Q : α → HProp V} {K : α → M V β} (h : Triple True P m Q) (hk : ∀ a, Stops (Q a ∗ F) (K a)) :
    Stops (P ∗ F) (m >>= K) := by
  intro s ho hs
  obtain ⟨a, s', h1, h2, h3⟩ := h.run (F := F) (fun _ => ho) hs
  rw [bind_ok h1]
  exact hk a s' (by rw [h2]; exact ho) h3

theorem Stops.pure_left {p : Prop} {P : HProp V} {m : M V α} (h : p → Stops P m) : Stops (⌜p⌝ ∗ P) m := by
  intro s ho hs
  rw [hpure_sep_apply] at hs
  exact h hs.1 s ho hs.2

variable {F : Nat → V → V → Bool} {comp : Nat} {l : Loc} {v : V}

/-- the part of `c_priority_queue_push` before the heap algorithm, on a list -/
def pqPushHead (E : Types V) (a : Addr) (value : Loc) : M V (Option (Slots × Nat × Nat) × Nat) := do
  let b ← ldN (a, 1)
  let o ← ops E b
  o.pushBack b value
  let r ← o.range b
  let comp ← ldN (a, 2)
  pure (r, comp)

theorem pqPush_eq (ha : a ≠ 0) (hl : l.1 ≠ 0) : pqPush E F a l = (pqPushHead E a l >>= fun x => heapCall x.1 fun c first last => pushHeap c first last (F x.2)) := by
  unfold pqPush pqPushHead
  rw [if_neg (by simp [ha, hl])]
  simp only [bind_assoc, pure_bind]

theorem brange_list : Triple nf (isBack E nf .list b ty ws) ((wrap (Kind.impl E .list)).range b) (fun r => ⌜r = none⌝ ∗ isBack E nf .list b ty ws) := by
  refine wrap_spec0 (g := fun c => if c = 0 then pure none else ldN (c, 2) >>= (listImpl E).range) (fun _ => rfl)
    (Q := fun impl r => ⌜r = none⌝ ∗ (kindSpec E nf .list).rep ty impl ws) (fun impl => ?_) ?_
  · show Triple nf (listRep ty impl ws) (do let _ ← CList.begin_ impl; let _ ← CList.end_ impl; pure none) (fun r => ⌜r = none⌝ ∗ listRep ty impl ws)
    unfold listRep
    xintro s xs h
    call (CList.begin_spec (nf := nf) (l := impl) (s := s) (ty := ty) (xs := xs))
    intro _
    xintro _
    call (CList.end_spec (nf := nf) (l := impl) (s := s) (ty := ty) (xs := xs))
    intro _
    xintro _
    apply Triple.ret
    xexists s, xs
    cancel
  · intro impl r
    xintro h
    refine ent_pure_right h ?_
    exact isBack_fold

theorem pqPushHead_spec (hl : l.1 ≠ 0) :
    Triple True (isPq E True .list a ty comp ws ∗ pts l (.obj (some v))) (pqPushHead E a l)
      (fun r => ⌜r.1 = none⌝ ∗ isPq E True .list a ty comp (ws ++ [v]) ∗ pts l (.obj (some v))) := by
  unfold pqPushHead isPq
  xintro b
  step
  refine Triple.pre (P' := isBack E True .list b ty ws ∗ (blk a 2 ∗ fld a 1 b ∗ fld a 2 comp) ∗ pts l (.obj (some v))) (by cancel) ?_
  apply ops_spec
  call (bpushBack_spec (nf := True) (E := E) (k := .list) (b := b) (ty := ty) (ws := ws) (v := v) hl)
  intro _
  xintro ws1 h1
  obtain rfl := h1.resolve_right (fun h => h.1 trivial)
  call (brange_list (E := E) (nf := True) (b := b) (ty := ty) (ws := ws ++ [v]))
  intro r
  xintro hr
  subst hr
  step
  apply Triple.ret
  xexists b
  cancel

/-- `c_priority_queue_push` on a priority queue with a list backend: the element is appended, then the heap algorithm stops at its assertion on the iterator category -/
theorem pqPush_list_stops (hl : l.1 ≠ 0) : Stops ((isPq E True .list a ty comp ws ∗ pts l (.obj (some v))) ∗ R) (pqPush E F a l) := by
  intro s ho hs
  have ha : a ≠ 0 := pq_ne (by rw [sep_assoc] at hs; exact hs)
  rw [pqPush_eq ha hl]
  revert s
  refine Stops.bind (pqPushHead_spec hl) ?_
  rintro ⟨r, c⟩
  rw [sep_assoc]
  apply Stops.pure_left
  rintro rfl
  intro s _ _
  rfl

end CC.Adapter
