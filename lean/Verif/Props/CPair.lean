import Verif.Pair.Spec
/-!
# Pairs (C40, C53): what maps store
-/
namespace CC.Pair
open CC.Tac
variable {V W₁ W₂ α β : Type} {nf : Prop} {T : Nat → Ops V}

/-! ## runs of malloc with known contents of the fresh memory -/

/-- a `malloc` that succeeds: the fresh block contains what the allocator left there -/
theorem malloc_run {n : Nat} {init : (Nat → Nat) → Nat → Val V} {s : Mem V} {F : HProp V} (hc : s.orc s.tick ≠ 0) (hs : F s.cells) :
    ∃ a s', mallocG n init s = some (.ok (a, s')) ∧ a ≠ 0 ∧ s'.orc = s.orc ∧ s'.junk = s.junk ∧ s'.tick = s.tick + 1 ∧
      (blk a n ∗ arr a 1 ((List.range n).map fun i => init (s.junk s.tick) (i+1)) ∗ F) s'.cells := by
  let a := pick s n
  have ha : a ≠ 0 := by
    simp only [a, pick]; split
    · exact hc
    · have := s.hpos; omega
  have hfree : ∀ i, i ≤ n → s.cells (a, i) = none := by
    intro i hi
    simp only [a, pick]; split
    · rename_i h
      simp only [freeRange, List.all_eq_true, List.mem_range, Option.isNone_iff_eq_none] at h
      exact h i (by omega)
    · exact s.htop _ (Nat.le_refl _)
  let s1 : Mem V := { s with
    tick := s.tick + 1
    clk := s.clk + 1
    cells := fun l => if l.1 = pick s n ∧ l.2 ≤ n then
                (if l.2 = 0 then some (.sz n) else some (init (s.junk s.tick) l.2)) else s.cells l
    top := max s.top (pick s n + 1)
    hpos := Nat.lt_of_lt_of_le s.hpos (Nat.le_max_left _ _)
    htop := by
      intro l hl
      have : l.1 ≠ pick s n := Nat.ne_of_gt (Nat.le_trans (Nat.le_max_right _ _) hl)
      have h2 := s.htop l (Nat.le_trans (Nat.le_max_left _ _) hl)
      simp [this, h2]
    hnul := by
      intro i
      simp [pick_ne0 hc, s.hnul i] }
  refine ⟨a, s1, ?_, ha, rfl, rfl, rfl, ?_⟩
  · simp [mallocG, Bind.bind, StateT.bind, ExceptT.bind, ExceptT.mk, Option.bind, ExceptT.bindCont, hc,
      get, getThe, MonadStateOf.get, StateT.get, Pure.pure, StateT.pure, ExceptT.pure, set, StateT.set, s1, a]
  · rw [← sep_assoc]
    refine ⟨fun l => if l.1 = a ∧ l.2 ≤ n then
                (if l.2 = 0 then some (.sz n) else some (init (s.junk s.tick) l.2)) else none, s.cells, ?_, ?_, ?_, hs⟩
    · rintro ⟨b, i⟩
      by_cases e : b = a ∧ i ≤ n
      · right; obtain ⟨rfl, hi⟩ := e; exact hfree i hi
      · left; simp [e]
    · funext ⟨b, i⟩
      simp only [Heap.union, s1, a]
      by_cases e : b = pick s n ∧ i ≤ n
      · simp only [e, and_self, if_true]; split <;> rfl
      · simp [e]
    · refine ⟨_, _, ?_, ?_, ⟨ha, rfl⟩, arr_heap ha 1 _⟩
      · rintro ⟨b, i⟩; grind
      · funext ⟨b, i⟩; simp only [Heap.union]
        rcases i with _ | i
        · by_cases hb : b = a <;> simp [hb]
        · by_cases hi : i < n
          · have : i + 1 ≤ n := by omega
            by_cases hb : b = a <;> simp [hb, this, hi]
          · have : ¬ i + 1 ≤ n := by omega
            simp [this, hi]

/-- programs that allocate nothing -/
def Quiet (m : M V α) : Prop := ∀ s a s', m s = some (.ok (a, s')) → s'.orc = s.orc ∧ s'.junk = s.junk ∧ s'.tick = s.tick

theorem Quiet.pure (a : α) : Quiet (pure a : M V α) := by
  intro s a s' h
  cases h
  exact ⟨rfl, rfl, rfl⟩

theorem Quiet.bind {m : M V α} {k : α → M V β} (h : Quiet m) (hk : ∀ a, Quiet (k a)) : Quiet (m >>= k) := by
  intro s b s' e
  cases hm : m s with
  | none => simp [Bind.bind, StateT.bind, ExceptT.bind, ExceptT.mk, Option.bind, hm] at e
  | some r => cases r with
    | error f => rw [bind_error hm] at e; cases e
    | ok r =>
      obtain ⟨a, s1⟩ := r
      rw [bind_ok hm] at e
      obtain ⟨a1, a2, a3⟩ := h _ _ _ hm
      obtain ⟨b1, b2, b3⟩ := hk a _ _ _ e
      exact ⟨b1.trans a1, b2.trans a2, b3.trans a3⟩

theorem Quiet.fault (f : Fault) : Quiet (fault f : M V α) := by
  intro s a s' h
  cases h

theorem Quiet.load (l : Loc) : Quiet (load l : M V (Val V)) := by
  intro s a s' h
  rcases load_cases s l with h1 | ⟨x, h1⟩
  · rw [h1] at h; cases h
  · rw [h1] at h; cases h; exact ⟨rfl, rfl, rfl⟩

theorem Quiet.store (l : Loc) (x : Val V) : Quiet (store l x : M V Unit) := by
  intro s a s' h
  by_cases hn : s.cells l = none
  · rw [store_none hn] at h; cases h
  · simp [CC.store, Bind.bind, StateT.bind, ExceptT.bind, ExceptT.mk, Option.bind, ExceptT.bindCont, hn,
      get, getThe, MonadStateOf.get, StateT.get, Pure.pure, ExceptT.pure, set, StateT.set, MonadStateOf.set] at h
    cases h
    exact ⟨rfl, rfl, rfl⟩

theorem Quiet.ldN (l : Loc) : Quiet (ldN l : M V Nat) := by
  unfold CC.ldN
  refine Quiet.bind (Quiet.load l) fun x => ?_
  split
  · exact Quiet.pure _
  · exact Quiet.fault _

theorem Quiet.stN (l : Loc) (n : Nat) : Quiet (stN l n : M V Unit) := Quiet.store _ _

theorem Quiet.cassert (b : Bool) : Quiet (cassert b : M V Unit) := by
  unfold CC.cassert
  split
  · exact Quiet.pure _
  · exact Quiet.fault _

/-- run a program that allocates nothing -/
theorem Quiet.run {m : M V α} {P F : HProp V} {Q : α → HProp V} {s : Mem V} (hq : Quiet m) (h : Triple False P m Q) (hs : (P ∗ F) s.cells) :
    ∃ a s', m s = some (.ok (a, s')) ∧ s'.orc = s.orc ∧ s'.junk = s.junk ∧ s'.tick = s.tick ∧ (Q a ∗ F) s'.cells := by
  obtain ⟨a, s', e, _, c⟩ := h.run (F := F) (s := s) (fun h => h.elim) hs
  obtain ⟨h1, h2, h3⟩ := hq _ _ _ e
  exact ⟨a, s', e, h1, h2, h3, c⟩

/-- a `malloc` that fails -/
theorem malloc_fail {n : Nat} {init : (Nat → Nat) → Nat → Val V} {s : Mem V} (hc : s.orc s.tick = 0) :
    ∃ s', mallocG n init s = some (.ok (0, s')) ∧ s'.cells = s.cells ∧ s'.orc = s.orc ∧ s'.junk = s.junk ∧ s'.tick = s.tick + 1 := by
  refine ⟨{ s with tick := s.tick + 1, clk := s.clk + 1 }, ?_, rfl, rfl, rfl, rfl⟩
  simp only [mallocG, Bind.bind, StateT.bind, ExceptT.bind, ExceptT.mk, Option.bind, ExceptT.bindCont, hc,
    get, getThe, MonadStateOf.get, StateT.get, Pure.pure, StateT.pure, ExceptT.pure, set, StateT.set, if_true, dif_pos]

/-- the part of `__create_node` behind the two allocations -/
def fill (T : Nat → Ops V) (n p value : Addr) : M V Addr := do
  stN (n, 2) 0
  stN (n, 3) 0
  stN (n, 4) 0
  stN (n, 1) 0
  pairCopy T p value
  pure n

/-- a tree node that is being built: all its fields but the pointer to the value are irrelevant -/
def node (n p : Nat) : HProp V := blk n 5 ∗ (∃ₛ c q l r, fld n 1 c ∗ fld n 2 q ∗ fld n 3 l ∗ fld n 4 r) ∗ fld n 5 p ∗ blk p 4

/-- `createNode` reaches the copy with a node and a pair struct whose bytes are those of the fresh memory -/
theorem createNode_run {s : Mem V} {F : HProp V} {value : Nat} (h1 : s.orc s.tick ≠ 0) (h2 : s.orc (s.tick + 1) ≠ 0) (hs : F s.cells) :
    ∃ n p s', createNode T value s = fill T n p value s' ∧ n ≠ 0 ∧ p ≠ 0 ∧ s'.orc = s.orc ∧ s'.tick = s.tick + 2 ∧
      ((node n p ∗ fields p (s.junk (s.tick+1) 1) (s.junk (s.tick+1) 2) (s.junk (s.tick+1) 3) (s.junk (s.tick+1) 4)) ∗ F) s'.cells := by
  obtain ⟨n, s1, r1, hn, o1, j1, t1, c1⟩ := malloc_run (n := 5) (init := fun junk i => .num (junk i)) h1 hs
  obtain ⟨p, s2, r2, hp, o2, j2, t2, c2⟩ := malloc_run (n := 4) (init := fun junk i => .num (junk i)) (s := s1) (by rw [o1, t1]; exact h2) c1
  unfold createNode mallocS
  rw [bind_ok r1, if_neg hn, bind_ok r2]
  rw [j1, t1] at c2
  have e5 : Triple False (pts (n, 5) (.num (s.junk s.tick 5)) : HProp V) (stN (n, 5) p) (fun _ => fld n 5 p) := by
    rw [← bind_pure (stN _ _)]
    step
    apply Triple.ret
    cancel
  have c3 : (pts (n, 5) (.num (s.junk s.tick 5)) ∗ (blk n 5 ∗ fld n 1 (s.junk s.tick 1) ∗ fld n 2 (s.junk s.tick 2) ∗ fld n 3 (s.junk s.tick 3) ∗ fld n 4 (s.junk s.tick 4) ∗ blk p 4 ∗
     fields p (s.junk (s.tick+1) 1) (s.junk (s.tick+1) 2) (s.junk (s.tick+1) 3) (s.junk (s.tick+1) 4) ∗ F)) s2.cells := by
    refine (show _ ⊢ₛ _ from ?_) _ c2
    simp only [arr, List.range_succ, List.range_zero, List.nil_append, List.cons_append, List.map_cons, List.map_nil, Nat.reduceAdd, Nat.zero_add, fields]
    cancel
  obtain ⟨_, s3, r3, o3, j3, t3, c4⟩ := (Quiet.stN (n, 5) p).run e5 c3
  rw [bind_ok r3, if_neg hp]
  refine ⟨n, p, s3, rfl, hn, hp, by rw [o3, o2, o1], by rw [t3, t2, t1], ?_⟩
  refine (show _ ⊢ₛ _ from ?_) _ c4
  unfold node
  xexists (s.junk s.tick 1), (s.junk s.tick 2), (s.junk s.tick 3), (s.junk s.tick 4)
  cancel

/-! ## C40 -/

/-- The part of C40 that holds: if the fresh memory of the pair happens to be zero, the new node holds a pair that owns copies of the key and the mapped value; the given pair is unchanged.
Component types are arbitrary (callbacks are programs).  Missing: other contents of fresh memory, see the next theorem. -/
theorem C40_createNode_partial {t₁ t₂ x y value : Nat} {w₁ : W₁} {w₂ : W₂} {e₁ : ElemSpec True (T t₁) W₁} {e₂ : ElemSpec True (T t₂) W₂} {s : Mem V} {F : HProp V}
    (h₁ : t₁ ≠ 0) (h₂ : t₂ ≠ 0) (ho : ∀ t, s.orc t ≠ 0) (hj : ∀ i, s.junk (s.tick + 1) i = 0) (hs : (refPair e₁ e₂ value x y w₁ w₂ ∗ F) s.cells) :
    ∃ n s', createNode T value s = some (.ok (n, s')) ∧ n ≠ 0 ∧ (refPair e₁ e₂ value x y w₁ w₂ ∗ (∃ₛ p, node n p ∗ ownPair e₁ e₂ p w₁ w₂) ∗ F) s'.cells := by
  obtain ⟨n, p, s1, r, hn, hp, o, t, c⟩ := createNode_run (T := T) (value := value) (ho _) (ho _) hs
  rw [hj 3, hj 4] at c
  have h3 : Triple True (node n p ∗ fields p (s.junk (s.tick+1) 1) (s.junk (s.tick+1) 2) 0 0 ∗ refPair e₁ e₂ value x y w₁ w₂) (fill T n p value)
      (fun r => ⌜r = n⌝ ∗ node n p ∗ ownPair e₁ e₂ p w₁ w₂ ∗ refPair e₁ e₂ value x y w₁ w₂) := by
    unfold fill node
    xintro c q l r
    step
    step
    step
    step
    call (pairCopy_spec (e₁ := e₁) (e₂ := e₂) (d := p) (s := value) h₁ h₂)
    intro _
    xintro x' y'
    by_cases hxy : x' = 0 ∨ y' = 0
    · rw [if_pos hxy]
      xintro h
      exact absurd trivial h
    rw [if_neg hxy]
    apply Triple.ret
    unfold ownPair
    xexists 0, 0, 0, 0, x', y'
    cancel
  obtain ⟨_, s2, r2, _, c2⟩ := h3.run (F := F) (s := s1) (fun _ t => by rw [o]; exact ho t) ((show _ ⊢ₛ _ by cancel) _ c)
  rw [sep_assoc, hpure_sep_apply] at c2
  obtain ⟨rfl, c2⟩ := c2
  refine ⟨_, s2, r.trans r2, hn, (show _ ⊢ₛ _ from ?_) _ c2⟩
  xexists p
  cancel

/-- The code violates C40: `c_pair_copy` asserts that the pointers in the *uninitialised* memory it copies to are zero.  Whenever malloc returns memory for the pair with other contents there, insertion into a map
aborts — for every pair, whatever the map contains, with memory to spare. -/
theorem C40_createNode_violated {t₁ t₂ x y value : Nat} {s : Mem V} {F : HProp V} (ho : ∀ t, s.orc t ≠ 0) (hj : s.junk (s.tick + 1) 3 ≠ 0 ∨ s.junk (s.tick + 1) 4 ≠ 0)
    (hs : (fields value t₁ t₂ x y ∗ F) s.cells) : createNode T value s = some (.error .abort) := by
  obtain ⟨n, p, s1, r, hn, hp, o, t, c⟩ := createNode_run (T := T) (value := value) (ho _) (ho _) hs
  rw [r]
  revert hj c
  generalize s.junk (s.tick+1) 1 = j1
  generalize s.junk (s.tick+1) 2 = j2
  generalize s.junk (s.tick+1) 3 = j3
  generalize s.junk (s.tick+1) 4 = j4
  intro hj c
  have h3 : Triple (V := V) False (node n p ∗ fields p j1 j2 j3 j4 ∗ fields value t₁ t₂ x y) (do
      stN (n, 2) 0
      stN (n, 3) 0
      stN (n, 4) 0
      stN (n, 1) 0
      let t₁ ← ldN (value, 1)
      stN (p, 1) t₁
      let t₂ ← ldN (value, 2)
      stN (p, 2) t₂
      let f ← ldN (p, 3)
      pure f) (fun f => ⌜f = j3⌝ ∗ fld p 3 j3 ∗ fld p 4 j4 ∗ ((∃ₛ c q l r, fld n 1 c ∗ fld n 2 q ∗ fld n 3 l ∗ fld n 4 r) ∗ blk n 5 ∗ fld n 5 p ∗ blk p 4 ∗ fld p 1 t₁ ∗ fld p 2 t₂ ∗ fields value t₁ t₂ x y)) := by
    unfold node fields
    xintro c q l r
    steps
    apply Triple.ret
    xexists 0, 0, 0, 0
    cancel
  obtain ⟨f, s2, r2, _, c2⟩ := h3.run (F := F) (s := s1) (fun h => h.elim) ((show _ ⊢ₛ _ by cancel) _ c)
  rw [sep_assoc, hpure_sep_apply] at c2
  obtain ⟨hf, c2⟩ := c2
  rw [hf] at r2
  unfold fill pairCopy
  have key : ∀ k : Nat → M V Addr, ((do
      stN (n, 2) 0
      stN (n, 3) 0
      stN (n, 4) 0
      stN (n, 1) 0
      let t₁ ← ldN (value, 1)
      stN (p, 1) t₁
      let t₂ ← ldN (value, 2)
      stN (p, 2) t₂
      let f ← ldN (p, 3)
      pure f) >>= k) s1 = k j3 s2 := fun k => bind_ok r2
  simp only [bind_assoc, pure_bind] at key ⊢
  rw [key]
  by_cases h3 : j3 = 0
  · subst h3
    have h4 : j4 ≠ 0 := hj.resolve_left (by simp)
    simp only [beq_self_eq_true, cassert, ↓reduceIte, pure_bind]
    rw [run_ldN (n := j4) (cell_of (R := _) c2 (by cancel))]
    rw [show (if (j4 == 0) = true then (pure () : M V Unit) else fault .abort) = fault .abort from if_neg (by simpa using h4)]
    exact bind_error rfl
  · rw [show (cassert (j3 == 0) : M V Unit) = fault .abort from if_neg (by simpa using h3)]
    exact bind_error rfl

/-! A memory with a pair of plain numbers: the hypotheses are met, with fresh memory of any content. -/

theorem sat_cons {l : Loc} {v : Val V} {P : HProp V} {h : Heap V} (hl : l.1 ≠ 0) (hp : P h) (hn : h l = none) : (pts l v ∗ P) (fun l' => if l' = l then some v else h l') := by
  refine ⟨fun l' => if l' = l then some v else none, h, ?_, ?_, ⟨hl, ?_⟩, hp⟩
  · intro l'
    by_cases e : l' = l
    · right; rw [e]; exact hn
    · left; simp [e]
  · funext l'
    simp only [Heap.union]
    by_cases e : l' = l <;> simp [e]
  · rfl

/-- a memory that contains a pair (5, 7) made by `c_make_pair`, with an allocator that never fails and leaves `junk` everywhere in fresh memory -/
theorem exists_pair (junk : Nat) (orc : Nat → Nat) : ∃ s : Mem Nat, s.orc = orc ∧ (∀ t i, s.junk t i = junk) ∧ s.tick = 0 ∧
    (fields 1 1 1 2 3 ∗ pts (2, 1) (.obj (some 5)) ∗ pts (3, 1) (.obj (some 7))) s.cells := by
  have h6 : (pts (3, 1) (.obj (some 7)) ∗ (emp : HProp Nat)) _ := sat_cons (by simp) (show emp (fun _ => none) from rfl) rfl
  have h5 : (pts (2, 1) (.obj (some 5)) ∗ _) _ := sat_cons (by simp) h6 (by simp)
  have h4 : (pts (1, 4) (.num 3) ∗ _) _ := sat_cons (by simp) h5 (by simp)
  have h3 : (pts (1, 3) (.num 2) ∗ _) _ := sat_cons (by simp) h4 (by simp)
  have h2 : (pts (1, 2) (.num 1) ∗ _) _ := sat_cons (by simp) h3 (by simp)
  have h1 : (pts (1, 1) (.num 1) ∗ _) _ := sat_cons (by simp) h2 (by simp)
  obtain ⟨h, hh, hb, hz⟩ : ∃ h : Heap Nat, (pts (1, 1) (.num 1) ∗ pts (1, 2) (.num 1) ∗ pts (1, 3) (.num 2) ∗ pts (1, 4) (.num 3) ∗ pts (2, 1) (.obj (some 5)) ∗ pts (3, 1) (.obj (some 7)) ∗ emp) h ∧
      (∀ l : Loc, 4 ≤ l.1 → h l = none) ∧ ∀ i, h (0, i) = none := by
    refine ⟨_, h1, fun l hl => ?_, fun i => by simp⟩
    have hne : ∀ b i, b < 4 → l ≠ (b, i) := by
      rintro b i hb rfl
      exact absurd hl (by simp; omega)
    rw [if_neg (hne 1 1 (by omega)), if_neg (hne 1 2 (by omega)), if_neg (hne 1 3 (by omega)), if_neg (hne 1 4 (by omega)), if_neg (hne 2 1 (by omega)), if_neg (hne 3 1 (by omega))]
  refine ⟨{ cells := h, top := 4, hpos := by omega, htop := hb, hnul := hz, orc := orc, junk := fun _ _ => junk, tick := 0 }, rfl, fun _ _ => rfl, rfl, (show _ ⊢ₛ _ from ?_) _ hh⟩
  unfold fields
  cancel

/-- insertion of (5, 7) with fresh memory full of ones aborts -/
example : ∃ s : Mem Nat, (∀ t, s.orc t ≠ 0) ∧ createNode (fun _ => plainOps ⟨0, fun _ _ => false, fun _ _ => false⟩) 1 s = some (.error .abort) := by
  obtain ⟨s, h1, h2, h3, h4⟩ := exists_pair 1 (fun _ => 1)
  refine ⟨s, by simp [h1], C40_createNode_violated (F := pts (2, 1) (.obj (some 5)) ∗ pts (3, 1) (.obj (some 7))) (t₁ := 1) (t₂ := 1) (x := 2) (y := 3) (by simp [h1]) (by simp [h2]) ?_⟩
  exact h4

/-- with zeroed fresh memory it stores copies -/
example : ∃ (s : Mem Nat) (n : Nat) (s' : Mem Nat), createNode (fun _ => plainOps ⟨0, fun _ _ => false, fun _ _ => false⟩) 1 s = some (.ok (n, s')) ∧
    ∃ F : HProp Nat, ((∃ₛ p, node n p ∗ ownPair (t₁ := 1) (t₂ := 1) (T := fun _ => plainOps ⟨0, fun _ _ => false, fun _ _ => false⟩) (nf := True) (plainSpec _) (plainSpec _) p 5 7) ∗ F) s'.cells := by
  obtain ⟨s, h1, h2, h3, h4⟩ := exists_pair 0 (fun _ => 1)
  have h5 : (refPair (t₁ := 1) (t₂ := 1) (T := fun _ => plainOps ⟨0, fun _ _ => false, fun _ _ => false⟩) (nf := True) (plainSpec _) (plainSpec _) 1 2 3 5 7 ∗ emp) s.cells := by
    refine (show _ ⊢ₛ _ from ?_) _ h4
    unfold refPair cell
    xexists .obj (some 5), .obj (some 7)
    simp only [plainSpec]
    cancel
  obtain ⟨n, s', e, _, c⟩ := C40_createNode_partial (by simp) (by simp) (by simp [h1]) (by simp [h2]) h5
  refine ⟨s, n, s', e, refPair (t₁ := 1) (t₂ := 1) (T := fun _ => plainOps ⟨0, fun _ _ => false, fun _ _ => false⟩) (nf := True) (plainSpec _) (plainSpec _) 1 2 3 5 7, ?_⟩
  rw [sep_emp, sep_comm] at c
  exact c

/-! ## C53 pairs as element type -/

/-- less is the dictionary order of the two component orders -/
theorem C53_less {U : Types V} {t₁ t₂ p q x y x' y' s₁ s₂ : Nat} {v₁ v₂ u₁ u₂ : V} (h₁ : t₁ ≠ 0) (h₂ : t₂ ≠ 0) :
    Triple nf (valPair p t₁ t₂ x y v₁ v₂ ∗ valPair q s₁ s₂ x' y' u₁ u₂) (pairLess U p q)
      (fun r => ⌜r = true ↔ (U t₁).less v₁ u₁ = true ∨ ((U t₁).less u₁ v₁ = false ∧ (U t₂).less v₂ u₂ = true)⌝ ∗ valPair p t₁ t₂ x y v₁ v₂ ∗ valPair q s₁ s₂ x' y' u₁ u₂) := by
  refine Triple.post (pairLess_spec h₁ h₂) fun r => ent_pure_left fun h => ent_pure_right ?_ (ent_refl _)
  rw [h]
  simp [lexLess]

/-- which is a strict weak order if the component orders are -/
theorem C53_less_order {l₁ l₂ : V → V → Bool} (h₁ : StrictWeak l₁) (h₂ : StrictWeak l₂) : StrictWeak (fun a b : V × V => l₁ a.1 b.1 || (!l₁ b.1 a.1 && l₂ a.2 b.2)) :=
  lexLess_strictWeak h₁ h₂

/-- equal compares both components -/
theorem C53_equal {U : Types V} {t₁ t₂ p q x y x' y' s₁ s₂ : Nat} {v₁ v₂ u₁ u₂ : V} (h₁ : t₁ ≠ 0) (h₂ : t₂ ≠ 0) :
    Triple nf (valPair p t₁ t₂ x y v₁ v₂ ∗ valPair q s₁ s₂ x' y' u₁ u₂) (pairEqual U p q)
      (fun r => ⌜r = true ↔ (U t₁).equal v₁ u₁ = true ∧ (U t₂).equal v₂ u₂ = true⌝ ∗ valPair p t₁ t₂ x y v₁ v₂ ∗ valPair q s₁ s₂ x' y' u₁ u₂) := by
  refine Triple.post (pairEqual_spec h₁ h₂) fun r => ent_pure_left fun h => ent_pure_right ?_ (ent_refl _)
  rw [h]
  simp

/-- assign overwrites both components with the values of the source and nothing else -/
theorem C53_assign {t₁ t₂ d s x y x' y' s₁ s₂ : Nat} {v₁ v₂ u₁ u₂ : V} (h₁ : t₁ ≠ 0) (h₂ : t₂ ≠ 0) :
    Triple nf (valPair d t₁ t₂ x y v₁ v₂ ∗ valPair s s₁ s₂ x' y' u₁ u₂) (pairAssign d s) (fun _ => valPair d t₁ t₂ x y u₁ u₂ ∗ valPair s s₁ s₂ x' y' u₁ u₂) :=
  pairAssign_spec h₁ h₂

/-- destroying a node of a map releases the pair's components, the pair and the node: nothing is left -/
theorem C53_destroy {t₁ t₂ n : Nat} {w₁ : W₁} {w₂ : W₂} {e₁ : ElemSpec nf (T t₁) W₁} {e₂ : ElemSpec nf (T t₂) W₂} (h₁ : t₁ ≠ 0) (h₂ : t₂ ≠ 0) :
    Triple nf (∃ₛ p, node n p ∗ ownPair e₁ e₂ p w₁ w₂) (destroyNode T n) (fun _ => emp) := by
  unfold destroyNode
  xintro p
  unfold node
  xintro c q l r
  step
  call (pairDestroy_spec (e₁ := e₁) (e₂ := e₂) (p := p) (w₁ := w₁) (w₂ := w₂) h₁ h₂)
  intro _
  unfold fields
  xintro x y
  have f4 : Triple (V := V) nf (blk p 4 ∗ fld p 1 t₁ ∗ fld p 2 t₂ ∗ fld p 3 x ∗ fld p 4 y) (free p) (fun _ => emp) := by
    have := Triple.free_spec (nf := nf) (P := emp) (Q := fun _ => emp) (n := 4) (a := p) (vs := [.num t₁, .num t₂, .num x, .num y]) (k := fun _ => (pure () : M V Unit)) rfl
      (Triple.ret (ent_refl _))
    simpa [arr] using this
  have f5 : Triple (V := V) nf (blk n 5 ∗ fld n 1 c ∗ fld n 2 q ∗ fld n 3 l ∗ fld n 4 r ∗ fld n 5 p) (free n) (fun _ => emp) := by
    have := Triple.free_spec (nf := nf) (P := emp) (Q := fun _ => emp) (n := 5) (a := n) (vs := [.num c, .num q, .num l, .num r, .num p]) (k := fun _ => (pure () : M V Unit)) rfl
      (Triple.ret (ent_refl _))
    simpa [arr] using this
  call f4
  intro _
  call f5
  intro _
  cancel

/-- a default-constructed pair has default components -/
theorem C53_create {t₁ t₂ d : Nat} {e₁ : ElemSpec True (T t₁) W₁} {e₂ : ElemSpec True (T t₂) W₂} (h₁ : t₁ ≠ 0) (h₂ : t₂ ≠ 0) :
    Triple True (fields d t₁ t₂ 0 0) (pairCreate T d) (fun _ => ownPair e₁ e₂ d e₁.dflt e₂.dflt) := by
  refine Triple.post (pairCreate_spec (e₁ := e₁) (e₂ := e₂) h₁ h₂) fun _ => ?_
  refine ent_ex_left fun x' => ent_ex_left fun y' => ?_
  by_cases h : x' = 0 ∨ y' = 0
  · rw [if_pos h]
    exact ent_pure_left fun h => absurd trivial h
  · rw [if_neg h]
    exact ent_ex_right x' (ent_ex_right y' (ent_refl _))

/-! ## C54 maps when memory runs out -/

/-- The part of C54 that holds: if the node or the pair itself cannot be allocated, `__create_node` reports it and nothing is leaked. -/
theorem C54_createNode_partial {s : Mem V} {F : HProp V} {value : Nat} (hs : F s.cells) (h : s.orc s.tick = 0 ∨ s.orc (s.tick + 1) = 0) :
    ∃ s', createNode T value s = some (.ok (0, s')) ∧ F s'.cells := by
  unfold createNode mallocS
  by_cases h1 : s.orc s.tick = 0
  · obtain ⟨s', r, c, _⟩ := malloc_fail (n := 5) (init := fun junk i => .num (junk i)) h1
    rw [bind_ok r, if_pos rfl]
    exact ⟨s', rfl, by rw [c]; exact hs⟩
  · have h2 := h.resolve_left h1
    obtain ⟨n, s1, r1, hn, o1, j1, t1, c1⟩ := malloc_run (n := 5) (init := fun junk i => .num (junk i)) h1 hs
    obtain ⟨s2, r2, c2, _⟩ := malloc_fail (n := 4) (init := fun junk i => .num (junk i)) (s := s1) (by rw [o1, t1]; exact h2)
    rw [bind_ok r1, if_neg hn, bind_ok r2, if_pos rfl]
    rw [← c2] at c1
    have h3 : Triple (V := V) False (blk n 5 ∗ arr n 1 ((List.range 5).map fun i => .num (s.junk s.tick (i+1)))) (do stN (n, 5) 0; free n; pure 0) (fun r => ⌜r = 0⌝) := by
      simp only [arr, List.range_succ, List.range_zero, List.nil_append, List.cons_append, List.map_cons, List.map_nil, Nat.reduceAdd, Nat.zero_add]
      step
      refine Triple.pre (P' := ((blk n 5 ∗ arr n 1 [.num (s.junk s.tick 1), .num (s.junk s.tick 2), .num (s.junk s.tick 3), .num (s.junk s.tick 4), .num 0]) ∗ emp)) ?_ ?_
      · simp only [arr]
        cancel
      refine Triple.free_spec rfl ?_
      apply Triple.ret
      cancel
    obtain ⟨a, s3, r3, _, c3⟩ := h3.run (F := F) (s := s2) (fun h => h.elim) ((show _ ⊢ₛ _ by cancel) _ c1)
    rw [hpure_sep_apply] at c3
    refine ⟨s3, ?_, c3.2⟩
    rw [r3, c3.1]

/-- reading the key of a map's node: `key_of_value(node->value)` (c_map.c:31-34) and reading the key -/
def readKey (n : Addr) : M V V := do
  let p ← ldN (n, 5)
  let k ← ldN (p, 3)
  ldV (k, 1)

/-- the first half of `c_pair_copy` -/
def copyHead (d s : Addr) : M V (Nat × Nat) := do
  let t₁ ← ldN (s, 1)
  stN (d, 1) t₁
  let t₂ ← ldN (s, 2)
  stN (d, 2) t₂
  let f ← ldN (d, 3)
  cassert (f == 0)
  let g ← ldN (d, 4)
  cassert (g == 0)
  let t₁ ← ldN (d, 1)
  cassert (t₁ != 0)
  let t₂ ← ldN (d, 2)
  cassert (t₂ != 0)
  pure (t₁, t₂)

/-- the second half of `c_pair_copy`, and the rest of `__create_node` -/
def copyTail (T : Nat → Ops V) (n p value : Addr) (q : Nat × Nat) : M V Addr := do
  let x ← allocate q.1
  stN (p, 3) x
  let y ← allocate q.2
  stN (p, 4) y
  if x = 0 ∨ y = 0 then do
    deallocate q.1 x
    deallocate q.2 y
    pure n
  else do
    let sx ← ldN (value, 3)
    (T q.1).copy (x, 1) (sx, 1)
    let sy ← ldN (value, 4)
    (T q.2).copy (y, 1) (sy, 1)
    pure n

theorem fill_eq {n p value : Addr} : fill T n p value = (do
    stN (n, 2) 0
    stN (n, 3) 0
    stN (n, 4) 0
    stN (n, 1) 0
    copyHead p value) >>= copyTail T n p value := by
  unfold fill pairCopy copyHead copyTail
  simp only [bind_assoc, pure_bind]
  refine bind_congr fun _ => bind_congr fun _ => bind_congr fun _ => bind_congr fun _ => bind_congr fun _ => bind_congr fun _ => bind_congr fun _ => bind_congr fun _ =>
    bind_congr fun _ => bind_congr fun _ => bind_congr fun _ => bind_congr fun _ => bind_congr fun _ => bind_congr fun _ => bind_congr fun _ => bind_congr fun _ =>
    bind_congr fun _ => bind_congr fun _ => bind_congr fun _ => bind_congr fun _ => ?_
  split <;> simp only [bind_assoc]

theorem free_run {a n : Nat} {s : Mem V} (h : s.cells (a, 0) = some (.sz n)) (ha : a ≠ 0) :
    ∃ s', (free a : M V Unit) s = some (.ok ((), s')) ∧ ∀ l : Loc, s'.cells l = if l.1 = a ∧ l.2 ≤ n then none else s.cells l := by
  refine ⟨_, by
    simp only [free, if_neg ha, load, Bind.bind, StateT.bind, ExceptT.bind, ExceptT.mk, Option.bind, ExceptT.bindCont, h,
      get, getThe, MonadStateOf.get, StateT.get, Pure.pure, StateT.pure, ExceptT.pure, set, StateT.set]
    rfl, fun l => rfl⟩

/-- The code violates C54: if the key's storage is allocated but the mapped value's is not, `c_pair_copy` releases the key's storage, keeps the pointer to it and returns without any sign of failure.
`__create_node` returns the node as if complete, and the next comparison with its key is a use after free. -/
theorem C54_createNode_violated {t₁ t₂ x y value : Nat} {s : Mem V} {F : HProp V} (h₁ : t₁ ≠ 0) (h₂ : t₂ ≠ 0)
    (ho : s.orc s.tick ≠ 0 ∧ s.orc (s.tick + 1) ≠ 0 ∧ s.orc (s.tick + 2) ≠ 0 ∧ s.orc (s.tick + 3) = 0) (hj : ∀ i, s.junk (s.tick + 1) i = 0) (hs : (fields value t₁ t₂ x y ∗ F) s.cells) :
    ∃ n s', createNode T value s = some (.ok (n, s')) ∧ n ≠ 0 ∧ readKey n s' = some (.error .ub) := by
  obtain ⟨n, p, s1, r, hn, hp, o, t, c⟩ := createNode_run (T := T) (value := value) ho.1 ho.2.1 hs
  rw [hj 1, hj 2, hj 3, hj 4] at c
  have q1 : Quiet (do
      stN (n, 2) 0
      stN (n, 3) 0
      stN (n, 4) 0
      stN (n, 1) 0
      copyHead p value : M V (Nat × Nat)) := by
    unfold copyHead
    repeat' first
      | exact Quiet.pure _
      | exact Quiet.ldN _
      | exact Quiet.stN _ _
      | exact Quiet.cassert _
      | (refine Quiet.bind ?_ fun _ => ?_)
  have h3 : Triple (V := V) False (node n p ∗ fields p 0 0 0 0 ∗ fields value t₁ t₂ x y) (do
      stN (n, 2) 0
      stN (n, 3) 0
      stN (n, 4) 0
      stN (n, 1) 0
      copyHead p value) (fun r => ⌜r = (t₁, t₂)⌝ ∗ node n p ∗ fields p t₁ t₂ 0 0 ∗ fields value t₁ t₂ x y) := by
    unfold copyHead node fields
    xintro c q l r
    step
    step
    step
    step
    step
    step
    step
    step
    step
    step
    · rfl
    step
    step
    · rfl
    step
    step
    · simpa using h₁
    step
    step
    · simpa using h₂
    apply Triple.ret
    xexists 0, 0, 0, 0
    cancel
  obtain ⟨f, s2, r2, o2, j2, t2, c2⟩ := q1.run (F := F) (s := s1) h3 ((show _ ⊢ₛ _ by cancel) _ c)
  rw [sep_assoc, hpure_sep_apply] at c2
  obtain ⟨hf, c2⟩ := c2
  subst hf
  obtain ⟨k, s3, r3, hk, o3, j3, t3, c3⟩ := malloc_run (n := 1) (init := fun _ _ => .obj none) (s := s2) (by rw [o2, o, t2, t]; exact ho.2.2.1) c2
  have e4 : Triple (V := V) False (fld p 3 0) (stN (p, 3) k) (fun _ => fld p 3 k) := by
    rw [← bind_pure (stN _ _)]
    step
    apply Triple.ret
    cancel
  obtain ⟨_, s4, r4, o4, j4, t4, c4⟩ := (Quiet.stN (p, 3) k).run (F := blk k 1 ∗ pts (k, 1) (.obj none) ∗ node n p ∗ fld p 1 t₁ ∗ fld p 2 t₂ ∗ fld p 4 0 ∗ fields value t₁ t₂ x y ∗ F) (s := s3) e4 (by
    refine (show _ ⊢ₛ _ from ?_) _ c3
    simp only [arr, List.range_succ, List.range_zero, List.nil_append, List.map_cons, List.map_nil, fields]
    cancel)
  obtain ⟨s5, r5, c5, o5, j5, t5⟩ := malloc_fail (n := 1) (init := fun _ _ => .obj none) (s := s4) (by rw [o4, o3, o2, o, t4, t3, t2, t]; exact ho.2.2.2)
  rw [← c5] at c4
  have e6 : Triple (V := V) False (fld p 4 0) (stN (p, 4) 0) (fun _ => fld p 4 0) := by
    rw [← bind_pure (stN _ _)]
    step
    apply Triple.ret
    cancel
  obtain ⟨_, s6, r6, o6, j6, t6, c6⟩ := (Quiet.stN (p, 4) 0).run (F := blk k 1 ∗ pts (k, 1) (.obj none) ∗ node n p ∗ fld p 1 t₁ ∗ fld p 2 t₂ ∗ fld p 3 k ∗ fields value t₁ t₂ x y ∗ F) (s := s5) e6 ((show _ ⊢ₛ _ by cancel) _ c4)
  have hk0 : s6.cells (k, 0) = some (.sz 1) := by
    refine cell_of (R := fld p 4 0 ∗ pts (k, 1) (.obj none) ∗ node n p ∗ fld p 1 t₁ ∗ fld p 2 t₂ ∗ fld p 3 k ∗ fields value t₁ t₂ x y ∗ F) c6 ?_
    unfold blk
    cancel
  obtain ⟨s7, r7, c7⟩ := free_run hk0 hk
  have hn5 : s6.cells (n, 5) = some (.num p) := by
    refine cell_of (R := fld p 4 0 ∗ pts (k, 1) (.obj none) ∗ blk k 1 ∗ blk n 5 ∗ (∃ₛ c q l r, fld n 1 c ∗ fld n 2 q ∗ fld n 3 l ∗ fld n 4 r) ∗ blk p 4 ∗ fld p 1 t₁ ∗ fld p 2 t₂ ∗ fld p 3 k ∗ fields value t₁ t₂ x y ∗ F) c6 ?_
    unfold node
    cancel
  have hp3 : s6.cells (p, 3) = some (.num k) := by
    refine cell_of (R := fld p 4 0 ∗ pts (k, 1) (.obj none) ∗ blk k 1 ∗ node n p ∗ fld p 1 t₁ ∗ fld p 2 t₂ ∗ fields value t₁ t₂ x y ∗ F) c6 ?_
    cancel
  have hnk : n ≠ k := by
    rintro rfl
    refine loc_ne_of (l₁ := (n, 0)) (l₂ := (n, 0)) (v₁ := .sz 1) (v₂ := .sz 5) c6 (R := fld p 4 0 ∗ pts (n, 1) (.obj none) ∗ fld n 5 p ∗ (∃ₛ c q l r, fld n 1 c ∗ fld n 2 q ∗ fld n 3 l ∗ fld n 4 r) ∗ blk p 4 ∗ fld p 1 t₁ ∗ fld p 2 t₂ ∗ fld p 3 n ∗ fields value t₁ t₂ x y ∗ F) ?_ rfl
    unfold node
    rw [show blk (V := V) n 1 = pts (n, 0) (.sz 1) from rfl, show blk (V := V) n 5 = pts (n, 0) (.sz 5) from rfl]
    cancel
  have hpk : p ≠ k := by
    rintro rfl
    refine loc_ne_of (l₁ := (p, 0)) (l₂ := (p, 0)) (v₁ := .sz 1) (v₂ := .sz 4) c6 (R := fld p 4 0 ∗ pts (p, 1) (.obj none) ∗ fld n 5 p ∗ (∃ₛ c q l r, fld n 1 c ∗ fld n 2 q ∗ fld n 3 l ∗ fld n 4 r) ∗ blk n 5 ∗ fld p 1 t₁ ∗ fld p 2 t₂ ∗ fld p 3 p ∗ fields value t₁ t₂ x y ∗ F) ?_ rfl
    unfold node
    rw [show blk (V := V) p 1 = pts (p, 0) (.sz 1) from rfl, show blk (V := V) p 4 = pts (p, 0) (.sz 4) from rfl]
    cancel
  refine ⟨n, s7, ?_, hn, ?_⟩
  · rw [r]
    rw [fill_eq, bind_ok r2]
    unfold copyTail
    have ha : ∀ {t : Nat}, t ≠ 0 → (allocate t : M V Addr) = mallocG 1 fun _ _ => .obj none := by
      intro t ht
      unfold allocate cassert mallocO
      rw [if_pos (by simpa using ht), pure_bind]
    have hd : ∀ {t q : Nat}, t ≠ 0 → (deallocate t q : M V Unit) = free q := by
      intro t q ht
      unfold deallocate cassert
      rw [if_pos (by simpa using ht), pure_bind]
    dsimp only
    rw [ha h₁, ha h₂, bind_ok r3, bind_ok r4, bind_ok r5, bind_ok r6, if_pos (Or.inr rfl), hd h₁, hd h₂, bind_ok r7]
    rfl
  · unfold readKey
    rw [run_ldN (n := p) (by rw [c7, if_neg (by simp [hnk])]; exact hn5), run_ldN (n := k) (by rw [c7, if_neg (by simp [hpk])]; exact hp3)]
    have := ldV_unalloc (s := s7.bump.bump) (l := (k, 1)) (k := fun v => (pure v : M V V)) (by rw [c7, if_pos (by simp)])
    rwa [bind_pure] at this

/-- such a failure is reachable with any two components -/
example : ∃ (s : Mem Nat) (n : Nat) (s' : Mem Nat), createNode (fun _ => plainOps ⟨0, fun _ _ => false, fun _ _ => false⟩) 1 s = some (.ok (n, s')) ∧ n ≠ 0 ∧
    readKey n s' = some (.error .ub) := by
  obtain ⟨s, h1, h2, h3, h4⟩ := exists_pair 0 (fun t => if t = 3 then 0 else 1)
  exact ⟨s, C54_createNode_violated (F := pts (2, 1) (.obj (some 5)) ∗ pts (3, 1) (.obj (some 7))) (t₁ := 1) (t₂ := 1) (x := 2) (y := 3) (by simp) (by simp) (by simp [h1, h3]) (by simp [h2]) h4⟩

end CC.Pair
