import Verif.Core.Err
/-!
# Programs that work or stop with a failed assertion

`Safe P m Q`: from every memory that satisfies `P`, whatever the allocator does, `m` either returns in a memory that satisfies `Q`, or some allocation request was
due to fail and `m` ends with a failed assertion.  In particular it ends, and there is no undefined behaviour.

`Exhausted P m Q`: with an allocator that fails every request, `m` returns in a memory that satisfies `Q`.
`Gives P m`: with an allocator that fails every request, `m` ends with a failed assertion.
-/
namespace CC
variable {V α β ι : Type}

def Safe (P : HProp V) (m : M V α) (Q : α → HProp V) : Prop := ∀ s : Mem V, P s.cells →
  (m s = some (.error .abort) ∧ ∃ t, s.orc t = 0) ∨ ∃ a s', m s = some (.ok (a, s')) ∧ s'.orc = s.orc ∧ Q a s'.cells

theorem Safe.of_triple {P : HProp V} {m : M V α} {Q : α → HProp V} (h : Triple False P m Q) : Safe P m Q := by
  intro s hs
  obtain ⟨a, s', h1, h2, h3⟩ := h.run (F := emp) (s := s) (fun h => h.elim) (by rw [sep_emp]; exact hs)
  rw [sep_emp] at h3
  exact Or.inr ⟨a, s', h1, h2, h3⟩

theorem Safe.bind {P : HProp V} {m : M V α} {Q : α → HProp V} {k : α → M V β} {R : β → HProp V} (h : Safe P m Q) (hk : ∀ a, Safe (Q a) (k a) R) :
    Safe P (m >>= k) R := by
  intro s hs
  rcases h s hs with ⟨h1, h2⟩ | ⟨a, s', h1, h2, h3⟩
  · exact Or.inl ⟨bind_error h1, h2⟩
  · rw [bind_ok h1]
    rcases hk a s' h3 with ⟨h4, h5⟩ | ⟨b, s'', h4, h5, h6⟩
    · exact Or.inl ⟨h4, by rw [← h2]; exact h5⟩
    · exact Or.inr ⟨b, s'', h4, h5.trans h2, h6⟩

theorem Safe.step {P : HProp V} {m : M V α} {Q : α → HProp V} {k : α → M V β} {R : β → HProp V} (h : Triple False P m Q) (hk : ∀ a, Safe (Q a) (k a) R) :
    Safe P (m >>= k) R := (Safe.of_triple h).bind hk

theorem Safe.post {P : HProp V} {m : M V α} {Q R : α → HProp V} (h : Safe P m Q) (he : ∀ a, Q a ⊢ₛ R a) : Safe P m R := by
  intro s hs
  rcases h s hs with h1 | ⟨a, s', h1, h2, h3⟩
  · exact Or.inl h1
  · exact Or.inr ⟨a, s', h1, h2, he a _ h3⟩

theorem Safe.pre {P P' : HProp V} {m : M V α} {Q : α → HProp V} (he : P ⊢ₛ P') (h : Safe P' m Q) : Safe P m Q := fun s hs => h s (he _ hs)

theorem Safe.pure_left {p : Prop} {P : HProp V} {m : M V α} {Q : α → HProp V} (h : p → Safe P m Q) : Safe (⌜p⌝ ∗ P) m Q := by
  intro s hs
  rw [hpure_sep_apply] at hs
  exact h hs.1 s hs.2

theorem Safe.ex {P : ι → HProp V} {m : M V α} {Q : α → HProp V} (h : ∀ i, Safe (P i) m Q) : Safe (hex P) m Q := by
  rintro s ⟨i, hs⟩
  exact h i s hs

/-- a statement specified with its continuation -/
theorem Safe.cps {P : HProp V} {m : M V α} {x : α} {k : α → M V β} {R : β → HProp V} (h : Triple False P (m >>= pure) (fun r => ⌜r = x⌝ ∗ P)) (hk : Safe P (k x) R) :
    Safe P (m >>= k) R := by
  rw [bind_pure] at h
  refine Safe.step h fun r => Safe.pure_left fun e => e ▸ hk

def Exhausted (P : HProp V) (m : M V α) (Q : α → HProp V) : Prop := ∀ s : Mem V, (∀ t, s.orc t = 0) → P s.cells →
  ∃ a s', m s = some (.ok (a, s')) ∧ s'.orc = s.orc ∧ Q a s'.cells

theorem Exhausted.of_triple {P : HProp V} {m : M V α} {Q : α → HProp V} (h : Triple False P m Q) : Exhausted P m Q := by
  intro s _ hs
  obtain ⟨a, s', h1, h2, h3⟩ := h.run (F := emp) (s := s) (fun h => h.elim) (by rw [sep_emp]; exact hs)
  rw [sep_emp] at h3
  exact ⟨a, s', h1, h2, h3⟩

theorem Exhausted.bind {P : HProp V} {m : M V α} {Q : α → HProp V} {k : α → M V β} {R : β → HProp V} (h : Exhausted P m Q) (hk : ∀ a, Exhausted (Q a) (k a) R) :
    Exhausted P (m >>= k) R := by
  intro s ho hs
  obtain ⟨a, s', h1, h2, h3⟩ := h s ho hs
  rw [bind_ok h1]
  obtain ⟨b, s'', h4, h5, h6⟩ := hk a s' (by rw [h2]; exact ho) h3
  exact ⟨b, s'', h4, h5.trans h2, h6⟩

theorem Exhausted.pure_left {p : Prop} {P : HProp V} {m : M V α} {Q : α → HProp V} (h : p → Exhausted P m Q) : Exhausted (⌜p⌝ ∗ P) m Q := by
  intro s ho hs
  rw [hpure_sep_apply] at hs
  exact h hs.1 s ho hs.2

theorem Exhausted.malloc {P : HProp V} {n : Nat} : Exhausted P (mallocS n : M V Addr) (fun r => ⌜r = 0⌝ ∗ P) := by
  intro s ho hs
  refine ⟨0, { s with tick := s.tick + 1, clk := s.clk + 1 }, ?_, rfl, ?_⟩
  · simp [mallocS, mallocG, Bind.bind, StateT.bind, ExceptT.bind, ExceptT.mk, Option.bind, ExceptT.bindCont, get, getThe, MonadStateOf.get, StateT.get, set,
      StateT.set, Pure.pure, StateT.pure, ExceptT.pure, ho]
  · exact hpure_sep_apply.2 ⟨rfl, hs⟩

/-- with an allocator that fails every request, `m` ends with a failed assertion -/
def Gives (P : HProp V) (m : M V α) : Prop := ∀ s : Mem V, (∀ t, s.orc t = 0) → P s.cells → m s = some (.error .abort)

theorem Gives.bind {P : HProp V} {m : M V α} {Q : α → HProp V} {k : α → M V β} (h : Exhausted P m Q) (hk : ∀ a, Gives (Q a) (k a)) : Gives P (m >>= k) := by
  intro s ho hs
  obtain ⟨a, s', h1, h2, h3⟩ := h s ho hs
  rw [bind_ok h1]
  exact hk a s' (by rw [h2]; exact ho) h3

theorem Gives.step {P : HProp V} {m : M V α} {Q : α → HProp V} {k : α → M V β} (h : Triple False P m Q) (hk : ∀ a, Gives (Q a) (k a)) : Gives P (m >>= k) :=
  Gives.bind (.of_triple h) hk

theorem Gives.head {P : HProp V} {m : M V α} {k : α → M V β} (h : Gives P m) : Gives P (m >>= k) := fun s ho hs => bind_error (h s ho hs)

theorem Gives.pure_left {p : Prop} {P : HProp V} {m : M V α} (h : p → Gives P m) : Gives (⌜p⌝ ∗ P) m := by
  intro s ho hs
  rw [hpure_sep_apply] at hs
  exact h hs.1 s ho hs.2

theorem Gives.ex {P : ι → HProp V} {m : M V α} (h : ∀ i, Gives (P i) m) : Gives (hex P) m := by
  rintro s ho ⟨i, hs⟩
  exact h i s ho hs

theorem Gives.pre {P P' : HProp V} {m : M V α} (he : P ⊢ₛ P') (h : Gives P' m) : Gives P m := fun s ho hs => h s ho (he _ hs)

end CC
