import Verif.Core.Elem
/-!
# Proving that a program runs into undefined behaviour

`Bad P m`: from every memory that satisfies `P` (as a whole), with an allocator that does not fail, `m` ends in undefined behaviour.
-/
namespace CC
open CC.Tac
variable {V W α β : Type} {nf : Prop} {o : Ops V}

def Bad (P : HProp V) (m : M V α) : Prop :=
  ∀ s : Mem V, (∀ t, s.orc t ≠ 0) → P s.cells → m s = some (.error .ub)

theorem Bad.bind {P F : HProp V} {m : M V α} {Q : α → HProp V} {k : α → M V β} (h : Triple True P m Q) (hk : ∀ a, Bad (Q a ∗ F) (k a)) :
    Bad (P ∗ F) (m >>= k) := by
  intro s ho hs
  obtain ⟨a, s', h1, h2, h3⟩ := h.run (F := F) (fun _ => ho) hs
  rw [bind_ok h1]
  exact hk a s' (by rw [h2]; exact ho) h3

theorem Bad.head {P : HProp V} {m : M V α} {k : α → M V β} (h : Bad P m) : Bad P (m >>= k) :=
  fun s ho hs => bind_error (h s ho hs)

theorem Bad.pre {P P' : HProp V} {m : M V α} (he : P ⊢ₛ P') (h : Bad P' m) : Bad P m := fun s ho hs => h s ho (he _ hs)

theorem Bad.ex {P : β → HProp V} {F : HProp V} {m : M V α} (h : ∀ b, Bad (P b ∗ F) m) : Bad ((∃ₛ b, P b) ∗ F) m := by
  intro s ho hs
  rw [hex_sep] at hs
  obtain ⟨b, hs⟩ := hs
  exact h b s ho hs

theorem Bad.pure_left {p : Prop} {P : HProp V} {m : M V α} (h : p → Bad P m) : Bad (⌜p⌝ ∗ P) m := by
  intro s ho hs
  rw [hpure_sep_apply] at hs
  exact h hs.1 s ho hs.2

theorem Bad.fact {p : Prop} {P : HProp V} {m : M V α} (hp : ∀ h, P h → p) (h : p → Bad P m) : Bad P m :=
  fun s ho hs => h (hp _ hs) s ho hs

/-- reading an unallocated location -/
theorem Bad.ldV {P : HProp V} {l : Loc} (h : ∀ c, P c → c l = none) : Bad P (ldV l : M V V) := by
  intro s ho hs
  have := ldV_unalloc (k := fun v => (pure v : M V V)) (h _ hs)
  rw [bind_pure] at this
  exact this

/-! ## Locations outside a fragment -/

/-- no fragment with `P` contains the location -/
def NotIn (l : Loc) (P : HProp V) : Prop := ∀ h, P h → h l = none

theorem NotIn.pts {l l' : Loc} {x : Val V} (h : l ≠ l') : NotIn l (pts l' x) := by
  rintro _ ⟨_, rfl⟩
  simp [h]

theorem NotIn.emp {l : Loc} : NotIn (V := V) l emp := by
  intro h hh
  rw [show h = fun _ => none from hh]

theorem NotIn.pure {l : Loc} {p : Prop} : NotIn (V := V) l ⌜p⌝ := by
  intro h hh
  rw [hh.2]
  rfl

theorem NotIn.sep {l : Loc} {P Q : HProp V} (h1 : NotIn l P) (h2 : NotIn l Q) : NotIn l (P ∗ Q) := by
  rintro _ ⟨h₁, h₂, _, rfl, hp, hq⟩
  simp [Heap.union, h1 _ hp, h2 _ hq]

theorem NotIn.ex {l : Loc} {P : α → HProp V} (h : ∀ a, NotIn l (P a)) : NotIn l (∃ₛ a, P a) := by
  rintro _ ⟨a, ha⟩
  exact h a _ ha

theorem NotIn.arr {l : Loc} {b i : Nat} {xs : List (Val V)} (h : l.1 ≠ b ∨ l.2 < i ∨ i + xs.length ≤ l.2) : NotIn l (arr b i xs) := by
  induction xs generalizing i with
  | nil => exact NotIn.emp
  | cons x xs ih =>
    rw [CC.arr]
    refine NotIn.sep (NotIn.pts ?_) (ih ?_)
    · rintro rfl; simp at h; omega
    · rcases h with h | h | h
      · exact Or.inl h
      · exact Or.inr (Or.inl (by omega))
      · simp at h; exact Or.inr (Or.inr (by omega))

theorem NotIn.raws {l : Loc} {b i n : Nat} (h : l.1 ≠ b ∨ l.2 < i ∨ i + n ≤ l.2) : NotIn (V := V) l (raws b i n) := by
  intro c hc
  obtain ⟨xs, hx⟩ := raws_to_arr _ hc
  rw [hpure_sep_apply] at hx
  obtain ⟨rfl, hx⟩ := hx
  exact NotIn.arr h _ hx

theorem NotIn.live {l : Loc} {b i : Nat} {e : ElemSpec nf o W} {ws : List W} (hp : e.Plain) (h : l.1 ≠ b ∨ l.2 < i ∨ i + ws.length ≤ l.2) :
    NotIn (V := V) l (live e b i ws) := by
  intro c hc
  obtain ⟨xs, hx⟩ := live_to_arr _ hc
  rw [hpure_sep_apply] at hx
  obtain ⟨hlen, hx⟩ := hx
  refine NotIn.sep (NotIn.arr ?_) ?_ _ hx
  · rw [hlen]; exact h
  · clear hx hc hlen h
    induction xs generalizing ws with
    | nil => cases ws with
      | nil => exact NotIn.emp
      | cons => exact NotIn.pure
    | cons x xs ih => cases ws with
      | nil => exact NotIn.pure
      | cons w ws =>
        rw [owns]
        obtain ⟨p, hp'⟩ := hp x w
        rw [hp']
        exact NotIn.sep NotIn.pure (ih (ws := ws))

/-! ## Loops that write to an unallocated slot -/

theorem store_none {s : Mem V} {l : Loc} {x : Val V} (h : s.cells l = none) : store l x s = some (.error .ub) := by
  simp [store, Bind.bind, StateT.bind, ExceptT.bind, ExceptT.mk, Option.bind, ExceptT.bindCont, h,
    get, getThe, MonadStateOf.get, StateT.get, Pure.pure, ExceptT.pure, ub, fault]

/-- a store succeeds or is undefined behaviour; it allocates nothing -/
theorem store_cases (s : Mem V) (l : Loc) (x : Val V) :
    store l x s = some (.error .ub) ∨ ∃ s', store l x s = some (.ok ((), s')) ∧ ∀ l', s.cells l' = none → s'.cells l' = none := by
  by_cases h : s.cells l = none
  · exact Or.inl (store_none h)
  · right
    simp [store, Bind.bind, StateT.bind, ExceptT.bind, ExceptT.mk, Option.bind, ExceptT.bindCont, h,
      get, getThe, MonadStateOf.get, StateT.get, Pure.pure, ExceptT.pure, set, StateT.set, MonadStateOf.set]
    refine ⟨_, rfl, ?_⟩
    intro a b h2
    by_cases hl : (a, b) = l
    · exact absurd (hl ▸ h2) h
    · simp [hl, h2]

theorem load_cases (s : Mem V) (l : Loc) :
    (load l s : Option (Except Fault (Val V × Mem V))) = some (.error .ub) ∨ ∃ x, load l s = some (.ok (x, s.bump)) := by
  cases h : s.cells l with
  | none => left; simp [load, Bind.bind, StateT.bind, ExceptT.bind, ExceptT.mk, Option.bind, ExceptT.bindCont, h,
      get, getThe, MonadStateOf.get, StateT.get, Pure.pure, ExceptT.pure, ub, fault]
  | some x => right; exact ⟨x, by simp [load, Bind.bind, StateT.bind, ExceptT.bind, ExceptT.mk, Option.bind, ExceptT.bindCont, h,
      get, getThe, MonadStateOf.get, StateT.get, set, StateT.set, Pure.pure, StateT.pure, ExceptT.pure]⟩

theorem ldV_cases (s : Mem V) (l : Loc) :
    (ldV l s : Option (Except Fault (V × Mem V))) = some (.error .ub) ∨ ∃ x, ldV l s = some (.ok (x, s.bump)) := by
  unfold ldV
  rcases load_cases s l with h | ⟨x, h⟩
  · exact Or.inl (bind_error h)
  · rw [bind_ok h]
    split
    · exact Or.inr ⟨_, rfl⟩
    · exact Or.inl rfl

theorem loadN_cases (s : Mem V) (l : Loc) (n : Nat) :
    (loadN l n s : Option (Except Fault (List (Val V) × Mem V))) = some (.error .ub) ∨ ∃ xs s', xs.length = n ∧ s'.cells = s.cells ∧ loadN l n s = some (.ok (xs, s')) := by
  induction n generalizing l s with
  | zero => exact Or.inr ⟨[], s, rfl, rfl, rfl⟩
  | succ n ih =>
    rw [loadN]
    rcases load_cases s l with h | ⟨x, h⟩
    · exact Or.inl (bind_error h)
    · rw [bind_ok h]
      rcases ih s.bump (l.1, l.2 + 1) with h | ⟨xs, s', hl, hc, h⟩
      · exact Or.inl (bind_error h)
      · rw [bind_ok h]; exact Or.inr ⟨x :: xs, s', by simp [hl], hc, rfl⟩

theorem storeN_bad {s : Mem V} {b i j : Nat} {xs : List (Val V)} (hj : j < xs.length) (h : s.cells (b, i + j) = none) :
    storeN (b, i) xs s = some (.error .ub) := by
  induction xs generalizing i j s with
  | nil => simp at hj
  | cons x xs ih =>
    rw [storeN]
    rcases store_cases s (b, i) x with h1 | ⟨s', h1, h2⟩
    · exact bind_error h1
    · rw [bind_ok h1]
      cases j with
      | zero => rw [Nat.add_zero] at h; rw [store_none h] at h1; cases h1
      | succ j =>
        refine ih (j := j) (by simpa using hj) (h2 _ ?_)
        rw [show i + 1 + j = i + (j + 1) by omega]
        exact h

/-- moving bytes onto a region with an unallocated slot -/
theorem memmove_bad {s : Mem V} {b i j n : Nat} {src : Loc} (hj : j < n) (h : s.cells (b, i + j) = none) :
    memmove (b, i) src n s = some (.error .ub) := by
  unfold memmove
  rcases loadN_cases s src n with h1 | ⟨xs, s', hl, hc, h1⟩
  · exact bind_error h1
  · rw [bind_ok h1]
    exact storeN_bad (by omega) (hc ▸ h)

/-- copying plain data to an unallocated slot -/
theorem plainCopy_cases {ty : Ty V} (s : Mem V) (d a : Loc) :
    (plainOps ty).copy d a s = some (.error .ub) ∨
      (s.cells d ≠ none ∧ ∃ s', (plainOps ty).copy d a s = some (.ok ((), s')) ∧ ∀ l', s.cells l' = none → s'.cells l' = none) := by
  unfold plainOps
  dsimp only
  rcases ldV_cases s a with h | ⟨x, h⟩
  · exact Or.inl (bind_error h)
  · rw [bind_ok h]
    rcases load_cases s.bump d with h | ⟨y, h⟩
    · exact Or.inl (bind_error h)
    · rw [bind_ok h]
      rcases store_cases s.bump.bump d (.obj (some x)) with h1 | ⟨s', h1, h2⟩
      · exact Or.inl h1
      · refine Or.inr ⟨?_, s', h1, h2⟩
        intro hn
        rw [store_none (s := s.bump.bump) hn] at h1
        cases h1

end CC
