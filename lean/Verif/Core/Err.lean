import Verif.Core.Tac
/-!
# Reasoning about runs that go wrong, and about concrete memories
-/
namespace CC
variable {V α β : Type} {nf : Prop}

/-- `P`, in a fragment where location `l` is not allocated. -/
def avoid (l : Loc) (P : HProp V) : HProp V := fun h => P h ∧ h l = none

theorem avoid_intro {l : Loc} {v : Val V} {P R : HProp V} {h : Heap V} (hh : ((pts l v ∗ P) ∗ R) h) :
    ((pts l v ∗ P) ∗ avoid l R) h := by
  obtain ⟨h₁, h₂, hd, rfl, h1, h2⟩ := hh
  refine ⟨h₁, h₂, hd, rfl, h1, h2, ?_⟩
  have := pts_sep_cells h1
  rcases hd l with h | h
  · rw [h] at this; cases this
  · exact h

theorem avoid_pts {l l' : Loc} {v : Val V} {R : HProp V} (hne : l' ≠ l) {h : Heap V} (hh : (pts l' v ∗ avoid l R) h) :
    (avoid l (pts l' v ∗ R)) h := by
  obtain ⟨h₁, h₂, hd, rfl, ⟨h1, rfl⟩, h2, h3⟩ := hh
  refine ⟨⟨_, _, hd, rfl, ⟨h1, rfl⟩, h2⟩, ?_⟩
  simp [Heap.union, h3, Ne.symm hne]

/-- Reading a location that is not allocated is undefined behaviour. -/
theorem ldV_unalloc {s : Mem V} {l : Loc} {k : V → M V β} (h : s.cells l = none) :
    (ldV l >>= k) s = some (.error .ub) := by
  simp [ldV, load, Bind.bind, StateT.bind, ExceptT.bind, ExceptT.mk, Option.bind, ExceptT.bindCont, h,
    get, getThe, MonadStateOf.get, StateT.get, Pure.pure, ExceptT.pure, ub, fault]

theorem bind_error {m : M V α} {k : α → M V β} {s : Mem V} {f : Fault} (h : m s = some (.error f)) :
    (m >>= k) s = some (.error f) := by
  simp [Bind.bind, StateT.bind, ExceptT.bind, ExceptT.mk, Option.bind, ExceptT.bindCont, h, Pure.pure]

theorem bind_ok {m : M V α} {k : α → M V β} {s s' : Mem V} {a : α} (h : m s = some (.ok (a, s'))) :
    (m >>= k) s = k a s' := by
  simp [Bind.bind, StateT.bind, ExceptT.bind, ExceptT.mk, Option.bind, ExceptT.bindCont, h]

/-- run a statement with a known specification -/
theorem Triple.run {P : HProp V} {m : M V α} {Q : α → HProp V} (h : Triple nf P m Q) {F : HProp V} {s : Mem V}
    (hnf : nf → ∀ t, s.orc t ≠ 0) (hs : (P ∗ F) s.cells) :
    ∃ a s', m s = some (.ok (a, s')) ∧ s'.orc = s.orc ∧ (Q a ∗ F) s'.cells := h s F hnf hs

/-- a memory consisting of the given fragment, with the given allocator -/
def memOf (h : Heap V) (top : Addr) (hpos : 0 < top) (htop : ∀ l : Loc, top ≤ l.1 → h l = none) (hnul : ∀ i, h (0, i) = none) (orc : Nat → Addr) : Mem V :=
  { cells := h, top := top, hpos := hpos, htop := htop, hnul := hnul, orc := orc, junk := fun _ _ => 0, tick := 0 }

/-- There is a memory that contains just an array of constructed values, whatever the allocator. -/
theorem exists_array (vs : List V) (orc : Nat → Addr) :
    ∃ m : Mem V, m.orc = orc ∧ arr 1 1 (vs.map fun v => .obj (some v)) m.cells := by
  refine ⟨memOf (fun l => if l.1 = 1 ∧ 1 ≤ l.2 then (vs.map fun v => .obj (some v))[l.2 - 1]? else none)
    2 (by omega) ?_ (fun i => by simp) orc, rfl, arr_heap (by omega) 1 _⟩
  intro l hl
  have : l.1 ≠ 1 := by omega
  rw [if_neg (by simp [this])]

end CC

namespace CC
variable {V α β : Type}

theorem run_ldN {s : Mem V} {l : Loc} {n : Nat} {k : Nat → M V β} (h : s.cells l = some (.num n)) :
    (ldN l >>= k) s = k n s.bump := by
  simp [ldN, load, Bind.bind, StateT.bind, ExceptT.bind, ExceptT.mk, Option.bind, ExceptT.bindCont, h,
    get, getThe, MonadStateOf.get, StateT.get, set, StateT.set, Pure.pure, StateT.pure, ExceptT.pure]

theorem run_ldV {s : Mem V} {l : Loc} {v : V} {k : V → M V β} (h : s.cells l = some (.obj (some v))) :
    (ldV l >>= k) s = k v s.bump := by
  simp [ldV, load, Bind.bind, StateT.bind, ExceptT.bind, ExceptT.mk, Option.bind, ExceptT.bindCont, h,
    get, getThe, MonadStateOf.get, StateT.get, set, StateT.set, Pure.pure, StateT.pure, ExceptT.pure]

/-- the content of a location owned by a fragment -/
theorem cell_of {l : Loc} {v : Val V} {P R : HProp V} {h : Heap V} (hh : P h) (he : P ⊢ₛ pts l v ∗ R) : h l = some v :=
  pts_sep_cells (he _ hh)

/-- two locations owned by disjoint fragments differ -/
theorem loc_ne_of {l₁ l₂ : Loc} {v₁ v₂ : Val V} {P R : HProp V} {h : Heap V} (hh : P h)
    (he : P ⊢ₛ pts l₁ v₁ ∗ pts l₂ v₂ ∗ R) : l₁ ≠ l₂ := pts_pts_ne (he _ hh)

/-- the fragment is exactly `h0` -/
def exactly (h0 : Heap V) : HProp V := fun h => h = h0

end CC
