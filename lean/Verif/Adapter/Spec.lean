import Verif.Adapter.Model
/-!
# Specifications of the backends and of the adapters
-/
namespace CC.Adapter
open CC CC.Tac CC.Algo
variable {V α β : Type} {nf : Prop} {E : Types V}

/-- a reference to the value `ow` inside the fragment `R` (NULL if there is none) -/
def peek (r : Loc) (ow : Option V) (R : HProp V) : HProp V :=
  match ow with
  | none => ⌜r.1 = 0⌝ ∗ R
  | some w => ∃ₛ F, ⌜r.1 ≠ 0 ∧ ((pts r (.obj (some w)) ∗ F) ⊢ₛ R)⌝ ∗ pts r (.obj (some w)) ∗ F

theorem peek_some {r : Loc} {w : V} {P R F : HProp V} (h0 : r.1 ≠ 0) (h1 : P ⊢ₛ pts r (.obj (some w)) ∗ F) (h2 : (pts r (.obj (some w)) ∗ F) ⊢ₛ R) :
    P ⊢ₛ peek r (some w) R := by
  unfold peek
  dsimp only
  xexists F
  rw [sep_emp]
  exact ent_pure_right (And.intro h0 h2) h1

theorem peek_drop {r : Loc} {ow : Option V} {R : HProp V} : peek r ow R ⊢ₛ R := by
  unfold peek
  cases ow with
  | none => exact ent_pure_left fun _ => ent_refl _
  | some w =>
    dsimp only
    xintro F h
    exact h.2

/-- What the functions of a container do: `rep ty a ws` says that the object `a` (of element type `ty`) holds the sequence `ws`. -/
structure ImplSpec (nf : Prop) (I : Impl V) where
  rep : Nat → Addr → List V → HProp V
  create_spec : ∀ ty, ty ≠ 0 → Triple nf emp (I.create ty) (fun r => ⌜r = 0 → ¬ nf⌝ ∗ if r = 0 then emp else rep ty r [])
  destroy_spec : ∀ ty a ws, Triple nf (rep ty a ws) (I.destroy a) (fun _ => emp)
  front_spec : ∀ ty a ws, Triple nf (rep ty a ws) (I.front a) (fun r => peek r ws.head? (rep ty a ws))
  back_spec : ∀ ty a ws, Triple nf (rep ty a ws) (I.back a) (fun r => peek r ws.getLast? (rep ty a ws))
  empty_spec : ∀ ty a ws, Triple nf (rep ty a ws) (I.empty a) (fun r => ⌜r = ws.isEmpty⌝ ∗ rep ty a ws)
  size_spec : ∀ ty a ws, Triple nf (rep ty a ws) (I.size a) (fun r => ⌜r = ws.length⌝ ∗ rep ty a ws)
  pushBack_spec : ∀ ty a ws l v, l.1 ≠ 0 → Triple nf (rep ty a ws ∗ pts l (.obj (some v))) (I.pushBack a l)
    (fun _ => ∃ₛ ws', ⌜ws' = ws ++ [v] ∨ (¬ nf ∧ ws' = ws)⌝ ∗ rep ty a ws' ∗ pts l (.obj (some v)))
  popBack_spec : ∀ ty a ws, Triple nf (rep ty a ws) (I.popBack a) (fun _ => rep ty a ws.dropLast)
  popFront_spec : ∀ f, I.popFront = some f → ∀ ty a ws, Triple nf (rep ty a ws) (f a) (fun _ => rep ty a ws.tail)
  swap_spec : ∀ ty a ws ty2 a2 ws2, Triple nf (rep ty a ws ∗ rep ty2 a2 ws2) (I.swap a a2) (fun _ => rep ty2 a ws2 ∗ rep ty a2 ws)

/-- random access: the elements are a range -/
def RangeSpec {nf : Prop} {I : Impl V} (S : ImplSpec nf I) : Prop :=
  ∀ ty a ws, Triple nf (S.rep ty a ws) (I.range a) (fun r => ∃ₛ c, ∃ₛ F, ⌜r = some (c, 0, ws.length) ∧
    ∀ ws' : List V, ws'.length = ws.length → ((seg c 0 ws' ∗ F) ⊢ₛ S.rep ty a ws')⌝ ∗ seg c 0 ws ∗ F)

/-! ## lists -/

def listRep (ty a : Nat) (ws : List V) : HProp V := ∃ₛ s, ∃ₛ xs, ⌜CList.vals xs = ws⌝ ∗ CList.isList a s ty xs

open CList in
theorem elts_peek {e : Elem V} {X Y : List (Elem V)} {l s ty : Nat} :
    isList l s ty (X ++ e :: Y) ⊢ₛ pts (e.box, 1) (.obj (some e.val)) ∗ ((hdr l s ty ∗ path s (nodes (X ++ e :: Y) ++ [s])) ∗
      elts X ∗ elts Y ∗ blk e.node 3 ∗ fld e.node 3 e.box ∗ blk e.box 1) := by
  unfold isList
  rw [elts_append, elts, elt]
  cancel

open CList in
theorem elts_unpeek {e : Elem V} {X Y : List (Elem V)} {l s ty : Nat} :
    (pts (e.box, 1) (.obj (some e.val)) ∗ ((hdr l s ty ∗ path s (nodes (X ++ e :: Y) ++ [s])) ∗
      elts X ∗ elts Y ∗ blk e.node 3 ∗ fld e.node 3 e.box ∗ blk e.box 1)) ⊢ₛ isList l s ty (X ++ e :: Y) := by
  unfold isList
  rw [elts_append, elts, elt]
  cancel

open CList in
theorem list_peek {e : Elem V} {X Y : List (Elem V)} {l s ty : Nat} :
    isList l s ty (X ++ e :: Y) ⊢ₛ peek (e.box, 1) (some e.val) (listRep ty l (vals (X ++ e :: Y))) := by
  intro h hh
  have hne : e.box ≠ 0 := pts_ne_zero (elts_peek _ hh)
  refine peek_some hne elts_peek ?_ h hh
  refine ent_trans elts_unpeek ?_
  unfold listRep
  xexists s, X ++ e :: Y
  cancel

def listSpec : ImplSpec nf (listImpl E) where
  rep := listRep
  create_spec ty hty := by
    show Triple nf emp (CList.create ty) _
    rw [← bind_pure (CList.create ty)]
    apply CList.create_spec hty
    · intro h
      apply Triple.ret
      rw [if_pos rfl]
      cancel
      exact fun _ => h
    · intro l s hl
      apply Triple.ret
      rw [if_neg hl]
      unfold listRep
      xexists s, []
      cancel
      · exact fun h => absurd h hl
  destroy_spec ty a ws := by
    unfold listRep
    xintro s xs h
    exact CList.destroy_spec
  front_spec ty a ws := by
    unfold listRep
    xintro s xs h
    subst h
    refine Triple.post CList.front_spec ?_
    intro r
    xintro hr
    subst hr
    cases xs with
    | nil =>
      unfold peek
      dsimp only
      simp only [CList.vals, List.map_nil, List.head?_nil]
      xexists s, []
      cancel
    | cons e xs => exact list_peek (X := [])
  back_spec ty a ws := by
    unfold listRep
    xintro s xs h
    subst h
    refine Triple.post CList.back_spec ?_
    intro r
    xintro hr
    subst hr
    rcases List.eq_nil_or_concat xs with rfl | ⟨xs, e, rfl⟩
    · simp only [CList.vals, List.map_nil, List.getLast?_nil, peek]
      xexists s, []
      cancel
    · simp only [CList.vals, List.concat_eq_append, List.map_append, List.map_cons, List.map_nil, List.getLast?_append, List.getLast?_singleton,
        Option.some_or]
      have := list_peek (X := xs) (e := e) (Y := []) (l := a) (s := s) (ty := ty)
      simp only [CList.vals, List.map_append, List.map_cons, List.map_nil] at this
      exact this
  empty_spec ty a ws := by
    unfold listRep
    xintro s xs h
    subst h
    refine Triple.post CList.empty_spec ?_
    intro r
    xintro hr
    xexists s, xs
    cancel
    simpa using hr
  size_spec ty a ws := by
    unfold listRep
    xintro s xs h
    subst h
    refine Triple.post CList.size_spec ?_
    intro r
    xintro hr
    xexists s, xs
    cancel
    simpa using hr
  pushBack_spec ty a ws l v hl := by
    unfold listRep
    xintro s xs h
    subst h
    refine Triple.post (CList.pushBack_spec (R := pts l (.obj (some v))) hl Reads.pts.right) ?_
    intro _
    xintro N hN
    rcases hN.2 with h0 | ⟨e, rfl, rfl⟩
    · subst h0
      xexists CList.vals xs, s, xs
      rw [List.append_nil]
      cancel
      exact Or.inr ⟨fun h => hN.1 h rfl, rfl⟩
    · xexists CList.vals xs ++ [e.val], s, xs ++ [e]
      cancel
      · exact Or.inl rfl
      · simp
  popBack_spec ty a ws := by
    unfold listRep
    xintro s xs h
    subst h
    refine Triple.post CList.popBack_spec ?_
    intro _
    xexists s, xs.dropLast
    cancel
    simp
  popFront_spec f hf ty a ws := by
    simp only [listImpl, Option.some.injEq] at hf
    subst hf
    unfold listRep
    xintro s xs h
    subst h
    refine Triple.post CList.popFront_spec ?_
    intro _
    xexists s, xs.tail
    cancel
    simp
  swap_spec ty a ws ty2 a2 ws2 := by
    unfold listRep
    xintro s xs h s2 xs2 h2
    subst h h2
    refine Triple.pre (P' := CList.isList a s ty xs ∗ CList.isList a2 s2 ty2 xs2) (by cancel) (Triple.post CList.swap_spec ?_)
    intro _
    xexists s2, xs2, s, xs
    cancel

/-! ## vectors -/

def vecRep (E : Types V) (nf : Prop) (ty a : Nat) (ws : List V) : HProp V :=
  ∃ₛ b, ∃ₛ cap, Vec.isVec (nf := nf) (T := fun ty => plainOps (E ty)) (ty := ty) (plainSpec (E ty)) a b cap ws

theorem live_split {t : Ty V} {b i : Nat} {X Y : List V} {w : V} :
    live (plainSpec (nf := nf) t) b i (X ++ w :: Y) = (pts (b, i + X.length) (.obj (some w)) ∗ live (plainSpec (nf := nf) t) b i X ∗
      live (plainSpec (nf := nf) t) b (i + X.length + 1) Y) := by
  rw [live_append, live_cons, plain_cell]
  apply ent_antisymm <;> cancel

theorem vec_peek {ty a b cap : Nat} {X Y : List V} {w : V} :
    Vec.isVec (nf := nf) (T := fun ty => plainOps (E ty)) (ty := ty) (plainSpec (E ty)) a b cap (X ++ w :: Y) ⊢ₛ
      peek (b, 1 + X.length) (some w) (vecRep E nf ty a (X ++ w :: Y)) := by
  have h1 : Vec.isVec (nf := nf) (T := fun ty => plainOps (E ty)) (ty := ty) (plainSpec (E ty)) a b cap (X ++ w :: Y) =
      (pts (b, 1 + X.length) (.obj (some w)) ∗ ((Vec.vhdr a b (X ++ w :: Y).length cap ty ∗ ⌜(X ++ w :: Y).length ≤ cap⌝ ∗
        raws b (1 + (X ++ w :: Y).length) (cap - (X ++ w :: Y).length)) ∗ live (plainSpec (nf := nf) (E ty)) b 1 X ∗
      live (plainSpec (nf := nf) (E ty)) b (1 + X.length + 1) Y)) := by
    unfold Vec.isVec
    rw [live_split]
    apply ent_antisymm <;> cancel
  intro h hh
  have hne : b ≠ 0 := by rw [h1] at hh; exact pts_ne_zero hh
  refine peek_some hne (ent_of_eq h1) ?_ h hh
  rw [← h1]
  unfold vecRep
  xexists b, cap
  cancel

def vecSpec : ImplSpec nf (vectorImpl E) where
  rep := vecRep E nf
  create_spec ty hty := by
    show Triple nf emp (Vec.create ty) _
    rw [← bind_pure (Vec.create ty)]
    apply Vec.create_spec (T := fun ty => plainOps (E ty)) (e := plainSpec (E ty)) hty
    · intro h
      apply Triple.ret
      rw [if_pos rfl]
      cancel
      exact fun _ => h
    · intro l hl
      apply Triple.ret
      rw [if_neg hl]
      unfold vecRep
      xexists 0, 0
      cancel
      · exact fun h => absurd h hl
  destroy_spec ty a ws := by
    unfold vecRep
    xintro b cap
    try rw [sep_emp]
    exact Vec.destroy_spec (T := fun ty => plainOps (E ty))
  front_spec ty a ws := by
    unfold vecRep
    xintro b cap
    try rw [sep_emp]
    refine Triple.post (Vec.front_spec (T := fun ty => plainOps (E ty))) ?_
    intro r
    xintro hr
    subst hr
    cases ws with
    | nil =>
      simp only [List.head?_nil, peek]
      xexists b, cap
      cancel
    | cons w ws =>
      rw [if_neg (by simp)]
      exact vec_peek (X := [])
  back_spec ty a ws := by
    unfold vecRep
    xintro b cap
    try rw [sep_emp]
    refine Triple.post (Vec.back_spec (T := fun ty => plainOps (E ty))) ?_
    intro r
    xintro hr
    subst hr
    rcases List.eq_nil_or_concat ws with rfl | ⟨ws, w, rfl⟩
    · simp only [List.getLast?_nil, peek]
      xexists b, cap
      cancel
    · rw [if_neg (by simp)]
      simp only [List.concat_eq_append, List.getLast?_append, List.getLast?_singleton, Option.some_or, List.length_append, List.length_singleton]
      rw [Nat.add_comm ws.length 1]
      exact vec_peek (Y := [])
  empty_spec ty a ws := by
    unfold vecRep
    xintro b cap
    try rw [sep_emp]
    refine Triple.post (Vec.vempty_spec (T := fun ty => plainOps (E ty))) ?_
    intro r
    xintro hr
    xexists b, cap
    cancel
    rw [hr]; cases ws <;> simp
  size_spec ty a ws := by
    unfold vecRep
    xintro b cap
    try rw [sep_emp]
    refine Triple.post (Vec.vsize_spec (T := fun ty => plainOps (E ty))) ?_
    intro r
    xintro hr
    xexists b, cap
    cancel
  pushBack_spec ty a ws l v hl := by
    unfold vecRep
    xintro b cap
    try rw [sep_emp]
    have := Vec.pushBack_spec (T := fun ty => plainOps (E ty)) (ty := ty) (e := plainSpec (nf := nf) (E ty)) (v := a) (b := b) (cap := cap) (ws := ws) (value := l) (w := v) hl
      (Or.inl (plain_plain _))
    rw [plain_cell] at this
    refine Triple.post this ?_
    intro _
    xintro b' cap' ws' h
    xexists ws', b', cap'
    cancel
    rcases h with h | h
    · exact Or.inl h.1
    · exact Or.inr ⟨h.1, h.2.2.1⟩
  popBack_spec ty a ws := by
    unfold vecRep
    xintro b cap
    try rw [sep_emp]
    refine Triple.post (Vec.popBack_spec (T := fun ty => plainOps (E ty))) ?_
    intro _
    xexists b, cap
    cancel
  popFront_spec f hf := by
    simp [vectorImpl] at hf
  swap_spec ty a ws ty2 a2 ws2 := by
    unfold vecRep
    xintro b cap b2 cap2
    refine Triple.pre ?_ (Triple.post (Vec.swap_spec (T := fun ty => plainOps (E ty)) (e := plainSpec (E ty)) (e2 := plainSpec (E ty2)) (b := b) (b2 := b2) (cap := cap) (cap2 := cap2) (ws := ws) (ws2 := ws2)) ?_)
    · cancel
    intro _
    xexists b2, cap2, b, cap
    cancel

theorem vecRange : RangeSpec (vecSpec (nf := nf) (E := E)) := by
  intro ty a ws
  show Triple nf (vecRep E nf ty a ws) (do
    let p ← Vec.vbegin a
    let q ← Vec.vend a
    pure (some (aslots p.1 p.2, 0, q.2 - p.2))) _
  unfold vecRep
  xintro b cap
  unfold Vec.isVec
  xintro hcap
  call Vec.vbegin_spec
  intro r
  xsub
  call Vec.vend_spec
  intro r
  xsub
  apply Triple.ret
  xexists aslots b 1, Vec.vhdr a b ws.length cap ty ∗ raws b (1 + ws.length) (cap - ws.length)
  have hl := fun ws : List V => live_seg (nf := nf) (t := E ty) (b := b) (o := 1) (i := 0) (vs := ws)
  rw [Nat.add_zero] at hl
  rw [hl]
  cancel
  refine ⟨by simp, ?_⟩
  intro ws' hw
  show _ ⊢ₛ vecRep E nf ty a ws'
  unfold vecRep Vec.isVec
  xexists b, cap
  rw [hw, ← hl]
  cancel

/-! ## deques -/

def deqRep (E : Types V) (nf : Prop) (ty a : Nat) (ws : List V) : HProp V :=
  ∃ₛ b, ∃ₛ lo, ∃ₛ hi, Deq.isDeq (nf := nf) (T := fun ty => plainOps (E ty)) (ty := ty) (plainSpec (E ty)) a b lo hi ws

theorem deq_peek {ty a b lo hi : Nat} {X Y : List V} {w : V} :
    Deq.isDeq (nf := nf) (T := fun ty => plainOps (E ty)) (ty := ty) (plainSpec (E ty)) a b lo hi (X ++ w :: Y) ⊢ₛ
      peek (b, 1 + lo + X.length) (some w) (deqRep E nf ty a (X ++ w :: Y)) := by
  have h1 : Deq.isDeq (nf := nf) (T := fun ty => plainOps (E ty)) (ty := ty) (plainSpec (E ty)) a b lo hi (X ++ w :: Y) =
      (pts (b, 1 + lo + X.length) (.obj (some w)) ∗ ((Deq.dhdr a b lo (X ++ w :: Y).length hi ty ∗ raws b 1 lo ∗
        raws b (1 + lo + (X ++ w :: Y).length) hi) ∗ live (plainSpec (nf := nf) (E ty)) b (1 + lo) X ∗
      live (plainSpec (nf := nf) (E ty)) b (1 + lo + X.length + 1) Y)) := by
    unfold Deq.isDeq
    rw [live_split]
    apply ent_antisymm <;> cancel
  intro h hh
  have hne : b ≠ 0 := by rw [h1] at hh; exact pts_ne_zero hh
  refine peek_some hne (ent_of_eq h1) ?_ h hh
  rw [← h1]
  unfold deqRep
  xexists b, lo, hi
  cancel

/-- lift a specification of the header to the deque -/
theorem deq_lift {ty a b lo hi : Nat} {ws : List V} {m : M V α} {p : α → Prop}
    (h : Triple nf (Deq.dhdr a b lo ws.length hi ty) m (fun r => ⌜p r⌝ ∗ Deq.dhdr a b lo ws.length hi ty)) :
    Triple nf (Deq.isDeq (nf := nf) (T := fun ty => plainOps (E ty)) (ty := ty) (plainSpec (E ty)) a b lo hi ws) m
      (fun r => ⌜p r⌝ ∗ Deq.isDeq (nf := nf) (T := fun ty => plainOps (E ty)) (ty := ty) (plainSpec (E ty)) a b lo hi ws) := by
  unfold Deq.isDeq
  call h
  intro r
  cancel

def deqSpec : ImplSpec nf (dequeImpl E) where
  rep := deqRep E nf
  create_spec ty hty := by
    refine Triple.post (Deq.create_spec (T := fun ty => plainOps (E ty)) (e := plainSpec (E ty)) hty) ?_
    intro r
    xintro h
    refine ent_pure_right h ?_
    by_cases hr : r = 0
    · rw [if_pos hr, if_pos hr]; exact ent_refl _
    · rw [if_neg hr, if_neg hr]
      unfold deqRep
      xexists 0, 0, 0
      cancel
  destroy_spec ty a ws := by
    unfold deqRep
    xintro b lo hi
    try rw [sep_emp]
    exact Deq.destroy_spec (T := fun ty => plainOps (E ty))
  front_spec ty a ws := by
    unfold deqRep
    xintro b lo hi
    try rw [sep_emp]
    refine Triple.post (deq_lift Deq.front_spec) ?_
    intro r
    xintro hr
    subst hr
    cases ws with
    | nil =>
      simp only [List.head?_nil, peek]
      xexists b, lo, hi
      cancel
    | cons w ws =>
      rw [if_neg (by simp)]
      exact deq_peek (X := [])
  back_spec ty a ws := by
    unfold deqRep
    xintro b lo hi
    try rw [sep_emp]
    refine Triple.post (deq_lift Deq.back_spec) ?_
    intro r
    xintro hr
    subst hr
    rcases List.eq_nil_or_concat ws with rfl | ⟨ws, w, rfl⟩
    · simp only [List.getLast?_nil, peek]
      xexists b, lo, hi
      cancel
    · rw [if_neg (by simp)]
      simp only [List.concat_eq_append, List.getLast?_append, List.getLast?_singleton, Option.some_or, List.length_append, List.length_singleton]
      rw [show lo + (ws.length + 1) = 1 + lo + ws.length by omega]
      exact deq_peek (Y := [])
  empty_spec ty a ws := by
    unfold deqRep
    xintro b lo hi
    try rw [sep_emp]
    refine Triple.post (deq_lift Deq.empty_spec) ?_
    intro r
    xintro hr
    xexists b, lo, hi
    cancel
    rw [hr]; cases ws <;> simp
  size_spec ty a ws := by
    unfold deqRep
    xintro b lo hi
    try rw [sep_emp]
    refine Triple.post (deq_lift Deq.size_spec) ?_
    intro r
    xintro hr
    xexists b, lo, hi
    cancel
  pushBack_spec ty a ws l v hl := by
    unfold deqRep
    xintro b lo hi
    try rw [sep_emp]
    have := Deq.pushBack_spec (T := fun ty => plainOps (E ty)) (ty := ty) (e := plainSpec (nf := nf) (E ty)) (v := a) (b := b) (lo := lo) (hi := hi) (ws := ws) (value := l) (w := v) hl
      (Or.inl (plain_plain _))
    rw [plain_cell] at this
    refine Triple.post this ?_
    intro _
    xintro b' lo' hi' ws' h
    xexists ws', b', lo', hi'
    cancel
    rcases h with h | h
    · exact Or.inl h.1
    · exact Or.inr ⟨h.1, h.2.2.1⟩
  popBack_spec ty a ws := by
    unfold deqRep
    xintro b lo hi
    try rw [sep_emp]
    rcases List.eq_nil_or_concat ws with rfl | ⟨ws, w, rfl⟩
    · have : Triple nf (Deq.isDeq (nf := nf) (T := fun ty => plainOps (E ty)) (ty := ty) (plainSpec (E ty)) a b lo hi []) ((dequeImpl E).popBack a)
          (fun _ => Deq.isDeq (nf := nf) (T := fun ty => plainOps (E ty)) (ty := ty) (plainSpec (E ty)) a b lo hi []) := by
        show Triple nf _ (Deq.popBack _ a) _
        unfold Deq.popBack
        refine Triple.bind (deq_lift Deq.empty_spec) ?_
        intro r
        xsub
        apply Triple.ret
        exact ent_refl _
      refine Triple.post this ?_
      intro _
      xexists b, lo, hi
      cancel
    · simp only [List.concat_eq_append, List.dropLast_concat]
      refine Triple.post (Deq.popBack_spec (T := fun ty => plainOps (E ty))) ?_
      intro _
      xexists b, lo, hi + 1
      cancel
  popFront_spec f hf ty a ws := by
    simp only [dequeImpl, Option.some.injEq] at hf
    subst hf
    unfold deqRep
    xintro b lo hi
    try rw [sep_emp]
    cases ws with
    | nil =>
      have : Triple nf (Deq.isDeq (nf := nf) (T := fun ty => plainOps (E ty)) (ty := ty) (plainSpec (E ty)) a b lo hi []) (Deq.popFront (fun ty => plainOps (E ty)) a)
          (fun _ => Deq.isDeq (nf := nf) (T := fun ty => plainOps (E ty)) (ty := ty) (plainSpec (E ty)) a b lo hi []) := by
        unfold Deq.popFront
        refine Triple.bind (deq_lift Deq.empty_spec) ?_
        intro r
        xsub
        apply Triple.ret
        exact ent_refl _
      refine Triple.post this ?_
      intro _
      xexists b, lo, hi
      cancel
    | cons w ws =>
      refine Triple.post (Deq.popFront_spec (T := fun ty => plainOps (E ty))) ?_
      intro _
      xexists b, lo + 1, hi
      cancel
  swap_spec ty a ws ty2 a2 ws2 := by
    unfold deqRep
    xintro b lo hi b2 lo2 hi2
    refine Triple.pre ?_ (Triple.post (Deq.swap_spec (T := fun ty => plainOps (E ty)) (e := plainSpec (E ty)) (e2 := plainSpec (E ty2)) (b := b) (b2 := b2) (lo := lo) (lo2 := lo2) (hi := hi) (hi2 := hi2) (ws := ws) (ws2 := ws2)) ?_)
    · cancel
    intro _
    xexists b2, lo2, hi2, b, lo, hi
    cancel

theorem deqRange : RangeSpec (deqSpec (nf := nf) (E := E)) := by
  intro ty a ws
  show Triple nf (deqRep E nf ty a ws) (do
    let p ← Deq.dbegin a
    let q ← Deq.dend a
    pure (some (aslots p.1 p.2, 0, q.2 - p.2))) _
  unfold deqRep
  xintro b lo hi
  unfold Deq.isDeq
  call Deq.dbegin_spec
  intro r
  xsub
  call Deq.dend_spec
  intro r
  xsub
  apply Triple.ret
  xexists aslots b (1 + lo), Deq.dhdr a b lo ws.length hi ty ∗ raws b 1 lo ∗ raws b (1 + lo + ws.length) hi
  have hl := fun ws : List V => live_seg (nf := nf) (t := E ty) (b := b) (o := 1 + lo) (i := 0) (vs := ws)
  rw [Nat.add_zero] at hl
  rw [hl]
  cancel
  refine ⟨by simp, ?_⟩
  intro ws' hw
  show _ ⊢ₛ deqRep E nf ty a ws'
  unfold deqRep Deq.isDeq
  xexists b, lo, hi
  rw [hw, ← hl]
  cancel

/-- the three backends of the library -/
def kindSpec (E : Types V) (nf : Prop) : (k : Kind) → ImplSpec nf (k.impl E)
  | .list => listSpec
  | .vector => vecSpec
  | .deque => deqSpec

end CC.Adapter
