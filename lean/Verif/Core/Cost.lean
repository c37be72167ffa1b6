import Verif.Core.Bad
/-!
# Counting memory accesses

`Mem.clk` counts loads, stores and calls of malloc and free.  `Cost m k`: every run of `m` that ends without an error makes at most `k` of them.
`TripleC nf P m Q k` is a `Triple` whose run makes at most `k` memory accesses.
-/
namespace CC
variable {V α β : Type} {nf : Prop}

/-- every successful run of `m` makes at most `k` memory accesses -/
def Cost (m : M V α) (k : Nat) : Prop := ∀ s a s', m s = some (.ok (a, s')) → s'.clk ≤ s.clk + k

/-- `m` is total and correct as in `Triple`, and makes at most `k` memory accesses -/
def TripleC (nf : Prop) (P : HProp V) (m : M V α) (Q : α → HProp V) (k : Nat) : Prop :=
  ∀ (s : Mem V) (F : HProp V), (nf → ∀ t, s.orc t ≠ 0) → (P ∗ F) s.cells →
    ∃ a s', m s = some (.ok (a, s')) ∧ s'.orc = s.orc ∧ s'.clk ≤ s.clk + k ∧ (Q a ∗ F) s'.cells

/-- whatever `m` does without an error, `m'` does, too -/
def Le (m m' : M V α) : Prop := ∀ s a s', m s = some (.ok (a, s')) → m' s = some (.ok (a, s'))

theorem bind_inv {m : M V α} {k : α → M V β} {s : Mem V} {b : β} {s' : Mem V} (e : (m >>= k) s = some (.ok (b, s'))) :
    ∃ a s1, m s = some (.ok (a, s1)) ∧ k a s1 = some (.ok (b, s')) := by
  cases hm : m s with
  | none => simp [Bind.bind, StateT.bind, ExceptT.bind, ExceptT.mk, Option.bind, hm] at e
  | some r => cases r with
    | error f => rw [bind_error hm] at e; cases e
    | ok r =>
      obtain ⟨a, s1⟩ := r
      rw [bind_ok hm] at e
      exact ⟨a, s1, rfl, e⟩

/-! ## `Le` -/

theorem Le.refl (m : M V α) : Le m m := fun _ _ _ h => h
theorem Le.bind {m m' : M V α} {k k' : α → M V β} (h : Le m m') (hk : ∀ a, Le (k a) (k' a)) : Le (m >>= k) (m' >>= k') := by
  intro s b s' e
  obtain ⟨a, s1, e1, e2⟩ := bind_inv e
  rw [bind_ok (h _ _ _ e1)]
  exact hk a _ _ _ e2
theorem Le.ite {p : Prop} [Decidable p] {m m' k k' : M V α} (h : Le m m') (hk : Le k k') : Le (if p then m else k) (if p then m' else k') := by
  split
  · exact h
  · exact hk
theorem Le.ub (m : M V α) : Le ub m := by intro s a s' e; cases e

theorem Triple.le {P : HProp V} {Q : α → HProp V} {m m' : M V α} (h : Le m m') (ht : Triple nf P m Q) : Triple nf P m' Q := by
  intro s F hnf hs
  obtain ⟨a, s', e, ho, hq⟩ := ht s F hnf hs
  exact ⟨a, s', h _ _ _ e, ho, hq⟩
/-- the same in the middle of a program -/
theorem Triple.leB {P : HProp V} {Q : β → HProp V} {m m' : M V α} {k : α → M V β} (h : Le m m') (ht : Triple nf P (m >>= k) Q) : Triple nf P (m' >>= k) Q :=
  Triple.le (h.bind fun _ => Le.refl _) ht

/-! ## `Cost` -/

theorem Cost.mono {m : M V α} {k k' : Nat} (h : Cost m k) (hk : k ≤ k') : Cost m k' := by
  intro s a s' e
  have := h _ _ _ e
  omega
theorem Cost.pure (a : α) : Cost (pure a : M V α) 0 := by
  intro s a s' h; cases h; exact Nat.le_refl _
theorem Cost.fault (f : Fault) : Cost (fault f : M V α) 0 := by
  intro s a s' h; cases h
theorem Cost.ub : Cost (ub : M V α) 0 := Cost.fault _
theorem Cost.bind {m : M V α} {k : α → M V β} {c d : Nat} (h : Cost m c) (hk : ∀ a, Cost (k a) d) : Cost (m >>= k) (c + d) := by
  intro s b s' e
  obtain ⟨a, s1, e1, e2⟩ := bind_inv e
  have := h _ _ _ e1
  have := hk a _ _ _ e2
  omega
theorem Cost.ite {p : Prop} [Decidable p] {m m' : M V α} {c d : Nat} (h : Cost m c) (hk : Cost m' d) : Cost (if p then m else m') (max c d) := by
  split
  · exact h.mono (by omega)
  · exact hk.mono (by omega)
theorem Cost.load (l : Loc) : Cost (load l : M V (Val V)) 1 := by
  intro s a s' h
  rcases load_cases s l with h1 | ⟨x, h1⟩
  · rw [h1] at h; cases h
  · rw [h1] at h; cases h; exact Nat.le_refl _
theorem Cost.store (l : Loc) (x : Val V) : Cost (store l x : M V Unit) 1 := by
  intro s a s' h
  by_cases hn : s.cells l = none
  · rw [store_none hn] at h; cases h
  · simp [CC.store, Bind.bind, StateT.bind, ExceptT.bind, ExceptT.mk, Option.bind, ExceptT.bindCont, hn,
      get, getThe, MonadStateOf.get, StateT.get, Pure.pure, ExceptT.pure, set, StateT.set, MonadStateOf.set] at h
    cases h
    exact Nat.le_refl _
theorem Cost.ldN (l : Loc) : Cost (ldN l : M V Nat) 1 := by
  unfold CC.ldN
  refine Cost.bind (c := 1) (d := 0) (Cost.load l) fun x => ?_
  split
  · exact Cost.pure _
  · exact Cost.ub
theorem Cost.stN (l : Loc) (n : Nat) : Cost (stN l n : M V Unit) 1 := Cost.store _ _
theorem Cost.ldP (l : Loc) : Cost (ldP l : M V (Nat × Nat)) 1 := by
  unfold CC.ldP
  refine Cost.bind (c := 1) (d := 0) (Cost.load l) fun x => ?_
  split
  · exact Cost.pure _
  · exact Cost.ub
theorem Cost.stP (l : Loc) (p : Nat × Nat) : Cost (stP l p : M V Unit) 1 := Cost.store _ _
theorem Cost.ldV (l : Loc) : Cost (ldV l : M V V) 1 := by
  unfold CC.ldV
  refine Cost.bind (c := 1) (d := 0) (Cost.load l) fun x => ?_
  split
  · exact Cost.pure _
  · exact Cost.ub
theorem Cost.construct (l : Loc) (v : V) : Cost (construct l v : M V Unit) 2 := by
  unfold CC.construct
  refine Cost.bind (c := 1) (d := 1) (Cost.load l) fun x => ?_
  split
  · exact Cost.store _ _
  · exact Cost.ub.mono (by omega)
theorem Cost.destroyV (l : Loc) : Cost (destroyV l : M V Unit) 2 := by
  unfold CC.destroyV
  refine Cost.bind (c := 1) (d := 1) (Cost.load l) fun x => ?_
  split
  · exact Cost.store _ _
  · exact Cost.ub.mono (by omega)
theorem Cost.cassert (b : Bool) : Cost (cassert b : M V Unit) 0 := by
  unfold CC.cassert
  split
  · exact Cost.pure _
  · exact Cost.fault _
theorem Cost.mallocG (n : Nat) (init : (Nat → Nat) → Nat → Val V) : Cost (mallocG n init) 1 := by
  intro s a s' h
  by_cases hc : s.orc s.tick = 0
  · simp [CC.mallocG, Bind.bind, StateT.bind, ExceptT.bind, ExceptT.mk, Option.bind, ExceptT.bindCont, hc,
      get, getThe, MonadStateOf.get, StateT.get, Pure.pure, StateT.pure, ExceptT.pure, set, StateT.set] at h
    cases h
    exact Nat.le_refl _
  · simp [CC.mallocG, Bind.bind, StateT.bind, ExceptT.bind, ExceptT.mk, Option.bind, ExceptT.bindCont, hc,
      get, getThe, MonadStateOf.get, StateT.get, Pure.pure, StateT.pure, ExceptT.pure, set, StateT.set] at h
    cases h
    exact Nat.le_refl _
theorem Cost.mallocS (n : Nat) : Cost (mallocS n : M V Nat) 1 := Cost.mallocG _ _
theorem Cost.mallocO (n : Nat) : Cost (mallocO n : M V Nat) 1 := Cost.mallocG _ _
theorem Cost.free (a : Nat) : Cost (free a : M V Unit) 2 := by
  unfold CC.free
  split
  · exact (Cost.pure _).mono (by omega)
  · refine Cost.bind (c := 1) (d := 1) (Cost.load _) fun x => ?_
    split
    · intro s a s' h
      cases h
      exact Nat.le_refl _
    · exact Cost.ub.mono (by omega)
theorem Cost.freeV (a : Nat) : Cost (freeV a : M V Unit) 3 := by
  unfold CC.freeV
  refine Cost.bind (c := 1) (d := 2) (Cost.load _) fun x => ?_
  split
  · exact Cost.free _
  · exact Cost.ub.mono (by omega)

/-! ## `TripleC` -/

theorem TripleC.intro {P : HProp V} {Q : α → HProp V} {m m' : M V α} {k : Nat} (ht : Triple nf P m Q) (hc : Cost m k) (hl : Le m m') : TripleC nf P m' Q k := by
  intro s F hnf hs
  obtain ⟨a, s', e, ho, hq⟩ := ht s F hnf hs
  exact ⟨a, s', hl _ _ _ e, ho, hc _ _ _ e, hq⟩
/-- `m` does what `h` says; and it is as cheap as `m'`, which it agrees with where `m'` is defined -/
theorem TripleC.of {P : HProp V} {Q Q' : α → HProp V} {m m' : M V α} {k : Nat} (h : Triple nf P m Q) (h' : Triple nf P m' Q') (hc : Cost m' k) (hl : Le m' m) : TripleC nf P m Q k := by
  intro s F ho hp
  obtain ⟨a, s1, e1, _, _⟩ := h' s F ho hp
  obtain ⟨b, s2, e2, o2, q2⟩ := h s F ho hp
  have e3 := hl _ _ _ e1
  rw [e2] at e3
  obtain ⟨rfl, rfl⟩ : b = a ∧ s2 = s1 := by
    cases e3
    exact ⟨rfl, rfl⟩
  exact ⟨b, s2, e2, o2, hc _ _ _ e1, q2⟩

theorem TripleC.triple {P : HProp V} {Q : α → HProp V} {m : M V α} {k : Nat} (h : TripleC nf P m Q k) : Triple nf P m Q := by
  intro s F hnf hs
  obtain ⟨a, s', e, ho, hc, hq⟩ := h s F hnf hs
  exact ⟨a, s', e, ho, hq⟩
theorem TripleC.mono {P : HProp V} {Q : α → HProp V} {m : M V α} {k k' : Nat} (h : TripleC nf P m Q k) (hk : k ≤ k') : TripleC nf P m Q k' := by
  intro s F hnf hs
  obtain ⟨a, s', e, ho, hc, hq⟩ := h s F hnf hs
  exact ⟨a, s', e, ho, by omega, hq⟩
theorem TripleC.bind {P : HProp V} {R : α → HProp V} {Q : β → HProp V} {m : M V α} {f : α → M V β} {k k' : Nat} (h : TripleC nf P m R k)
    (hf : ∀ a, TripleC nf (R a) (f a) Q k') : TripleC nf P (m >>= f) Q (k + k') := by
  intro s F hnf hs
  obtain ⟨a, s1, e, ho, hc, hq⟩ := h s F hnf hs
  obtain ⟨b, s2, e2, ho2, hc2, hq2⟩ := hf a s1 F (fun h => by rw [ho]; exact hnf h) hq
  refine ⟨b, s2, ?_, ho2.trans ho, by omega, hq2⟩
  rw [bind_ok e]
  exact e2
theorem TripleC.cons {P P' : HProp V} {Q Q' : α → HProp V} {m : M V α} {k : Nat} (h : TripleC nf P m Q k) (hp : P' ⊢ₛ P) (hq : ∀ a, Q a ⊢ₛ Q' a) : TripleC nf P' m Q' k := by
  intro s F hnf hs
  obtain ⟨a, s', e, ho, hc, hq'⟩ := h s F hnf (sep_mono hp (ent_refl F) _ hs)
  exact ⟨a, s', e, ho, hc, sep_mono (hq a) (ent_refl F) _ hq'⟩
theorem TripleC.ret {P : HProp V} {Q : α → HProp V} {a : α} (h : P ⊢ₛ Q a) : TripleC nf P (pure a) Q 0 := by
  intro s F hnf hs
  exact ⟨a, s, rfl, rfl, Nat.le_refl _, sep_mono h (ent_refl F) _ hs⟩
theorem TripleC.pre {P P' : HProp V} {Q : α → HProp V} {m : M V α} {k : Nat} (hp : P ⊢ₛ P') (h : TripleC nf P' m Q k) : TripleC nf P m Q k := h.cons hp fun _ => ent_refl _
theorem TripleC.ex_left {γ : Type} {P : γ → HProp V} {Q : α → HProp V} {m : M V α} {k : Nat} (h : ∀ c, TripleC nf (P c) m Q k) : TripleC nf (hex P) m Q k := by
  intro s F hnf hs
  rw [hex_sep] at hs
  obtain ⟨c, hs⟩ := hs
  exact h c s F hnf hs
theorem TripleC.pure_left {p : Prop} {P : HProp V} {Q : α → HProp V} {m : M V α} {k : Nat} (h : p → TripleC nf P m Q k) : TripleC nf (⌜p⌝ ∗ P) m Q k := by
  intro s F hnf hs
  rw [sep_assoc, hpure_sep_apply] at hs
  exact h hs.1 s F hnf hs.2

attribute [irreducible] Cost Le

/-! ## tactics -/

/-- lemmas about the cost of particular functions; extended by `macro_rules` -/
syntax "cost_fn" : tactic
macro_rules | `(tactic| cost_fn) => `(tactic| fail)

/-- one step of `cost` -/
macro "cost_step" : tactic => `(tactic| first
  | with_reducible first
    | exact Cost.ldN _ | exact Cost.stN _ _ | exact Cost.ldV _ | exact Cost.ldP _ | exact Cost.stP _ _ | exact Cost.pure _ | exact Cost.cassert _
    | exact Cost.construct _ _ | exact Cost.destroyV _ | exact Cost.mallocS _ | exact Cost.mallocO _ | exact Cost.free _ | exact Cost.freeV _ | exact Cost.ub
    | exact Cost.load _ | exact Cost.store _ _
    | cost_fn
    | apply Cost.bind
    | intro _
    | apply Cost.ite
    | dsimp only
    | split
  | apply Cost.bind
  | apply Cost.ite)

/-- computes the cost of a program without loops and closes `Cost m k` if the computed cost is at most `k` -/
macro "cost" : tactic => `(tactic| (apply Cost.mono; (focus (repeat' cost_step)); first | decide | omega))

syntax "le_fn" : tactic
macro_rules | `(tactic| le_fn) => `(tactic| fail)
/-- `Le` of two programs with the same structure -/
macro "le_step" : tactic => `(tactic| with_reducible first
  | exact Le.refl _
  | le_fn
  | refine Le.bind ?_ (fun _ => ?_)
  | refine Le.ite ?_ ?_)

end CC
