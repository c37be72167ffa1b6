import Verif.Core.Bad
/-!
# Two programs that do the same on the states of interest

`SameOn P m m'`: from every state whose memory satisfies `P`, whatever the allocator does, `m` and `m'` have exactly the same outcome (result and final state, fault,
or non-termination).  `Still m`: `m` changes no memory cell.  `wslots z w c` is the number of elements of `z` bytes that fit into `c * z` bytes when that product
is computed in a type of `w` values (`size_t` has `w = 2^64`).
-/
namespace CC
variable {V α β : Type}

/-- the number of whole elements of size `z` in a block of `c * z` bytes, the product computed modulo `w` -/
def wslots (z w c : Nat) : Nat := (c * z % w) / z

theorem wslots_eq {z w c : Nat} (hz : 0 < z) (h : c * z < w) : wslots z w c = c := by
  unfold wslots
  rw [Nat.mod_eq_of_lt h, Nat.mul_div_cancel _ hz]

theorem wslots_lt {z w c : Nat} (hw : 0 < w) (h : w ≤ c * z) : wslots z w c < c := by
  unfold wslots
  rcases Nat.eq_zero_or_pos z with rfl | hz
  · simp at h; omega
  · rw [Nat.div_lt_iff_lt_mul hz]
    exact Nat.lt_of_lt_of_le (Nat.mod_lt _ hw) h

def SameOn (P : HProp V) (m m' : M V α) : Prop := ∀ s : Mem V, P s.cells → m s = m' s

def Still (m : M V α) : Prop := ∀ s a s', m s = some (.ok (a, s')) → s'.cells = s.cells

theorem SameOn.refl {P : HProp V} {m : M V α} : SameOn P m m := fun _ _ => rfl

theorem SameOn.of_eq {P : HProp V} {m m' : M V α} (h : m = m') : SameOn P m m' := h ▸ .refl

theorem SameOn.pre {P P' : HProp V} {m m' : M V α} (he : P ⊢ₛ P') (h : SameOn P' m m') : SameOn P m m' := fun s hs => h s (he _ hs)

theorem bind_run {m : M V α} {k : α → M V β} {s : Mem V} :
    (m >>= k) s = match m s with | none => none | some (.error f) => some (.error f) | some (.ok (a, s')) => k a s' := by
  simp only [Bind.bind, StateT.bind, ExceptT.bind, ExceptT.mk, Option.bind]
  cases h : m s with
  | none => rfl
  | some r => cases r <;> rfl

theorem SameOn.head {P : HProp V} {m m' : M V α} {k : α → M V β} (h : SameOn P m m') : SameOn P (m >>= k) (m' >>= k) := by
  intro s hs
  rw [bind_run, bind_run, h s hs]

theorem SameOn.trans {P : HProp V} {m m' m'' : M V α} (h : SameOn P m m') (h' : SameOn P m' m'') : SameOn P m m'' := fun s hs => (h s hs).trans (h' s hs)

theorem SameOn.still {P : HProp V} {m : M V α} {k k' : α → M V β} (h : Still m) (hk : ∀ a, SameOn P (k a) (k' a)) :
    SameOn P (m >>= k) (m >>= k') := by
  intro s hs
  rw [bind_run, bind_run]
  cases hm : m s with
  | none => rfl
  | some r =>
    rcases r with f | ⟨a, s'⟩
    · rfl
    · exact hk a s' (h s a s' hm ▸ hs)

theorem SameOn.bind {P F : HProp V} {m : M V α} {Q : α → HProp V} {k k' : α → M V β} (h : Triple False P m Q) (hk : ∀ a, SameOn (Q a ∗ F) (k a) (k' a)) :
    SameOn (P ∗ F) (m >>= k) (m >>= k') := by
  intro s hs
  obtain ⟨a, s', h1, _, h2⟩ := h s F (fun h => h.elim) hs
  rw [bind_run, bind_run, h1]
  exact hk a s' h2

theorem SameOn.read {P F : HProp V} {m : M V α} {x : α} {k k' : α → M V β} (h : Triple False P m (fun r => ⌜r = x⌝ ∗ P)) (hk : SameOn (P ∗ F) (k x) (k' x)) :
    SameOn (P ∗ F) (m >>= k) (m >>= k') := by
  refine SameOn.bind h fun a s hs => ?_
  rw [sep_assoc] at hs
  obtain ⟨rfl, hs'⟩ := hpure_sep_apply.1 hs
  exact hk s hs'

theorem SameOn.fact {p : Prop} {P : HProp V} {m m' : M V α} (hp : ∀ h, P h → p) (h : p → SameOn P m m') : SameOn P m m' :=
  fun s hs => h (hp _ hs) s hs

/-- whatever is proved of one holds of the other -/
theorem Triple.of_same {nf : Prop} {P : HProp V} {m m' : M V α} {Q : α → HProp V} (hs : ∀ F, SameOn (P ∗ F) m' m) (h : Triple nf P m Q) : Triple nf P m' Q := by
  intro s F ho hP
  obtain ⟨a, s', h1, h2⟩ := h s F ho hP
  exact ⟨a, s', (hs F s hP).trans h1, h2⟩

theorem SameOn.pure_left {p : Prop} {P : HProp V} {m m' : M V α} (h : p → SameOn P m m') : SameOn (⌜p⌝ ∗ P) m m' := by
  intro s hs
  obtain ⟨hp, hs⟩ := hpure_sep_apply.1 hs
  exact h hp s hs

theorem Still.pure {a : α} : Still (Pure.pure a : M V α) := by intro s a s' h; cases h; rfl
theorem Still.ub : Still (CC.ub : M V α) := by intro s a s' h; cases h
theorem Still.bind {m : M V α} {k : α → M V β} (h : Still m) (hk : ∀ a, Still (k a)) : Still (m >>= k) := by
  intro s b s' hm
  rw [bind_run] at hm
  cases h1 : m s with
  | none => rw [h1] at hm; cases hm
  | some r =>
    rcases r with f | ⟨a, s1⟩
    · rw [h1] at hm; cases hm
    · rw [h1] at hm
      rw [hk a s1 b s' hm, h s a s1 h1]
theorem Still.ite {c : Prop} [Decidable c] {m m' : M V α} (h : Still m) (h' : Still m') : Still (if c then m else m') := by split <;> assumption
theorem Still.load {l : Loc} : Still (CC.load l : M V (Val V)) := by
  intro s a s' h
  rcases load_cases s l with h1 | ⟨x, h1⟩ <;> rw [h1] at h <;> cases h
  rfl
theorem Still.ldP {l : Loc} : Still (CC.ldP l : M V _) := by
  refine .bind .load fun x => ?_
  split
  · exact .pure
  · exact .ub
theorem Still.ldN {l : Loc} : Still (CC.ldN l : M V _) := by
  refine .bind .load fun x => ?_
  split
  · exact .pure
  · exact .ub
theorem Still.psub {p q : Loc} : Still (CC.psub p q : M V _) := .ite .pure .ub
theorem Still.pminus {p : Loc} {n : Nat} : Still (CC.pminus p n : M V _) := .ite .pure .ub
theorem Still.cassert {b : Bool} : Still (CC.cassert b : M V _) := by
  refine .ite .pure ?_
  intro s a s' h; cases h

/-- decides `Still` of a straight-line program -/
macro "still" : tactic => `(tactic| repeat' first
  | exact Still.pure | exact Still.ub | exact Still.load | exact Still.ldP | exact Still.ldN | exact Still.psub | exact Still.pminus | exact Still.cassert
  | assumption | (refine Still.bind ?_ fun _ => ?_) | (refine Still.ite ?_ ?_))

/-- filling plain data over an unallocated slot: copying or creating -/
theorem plainCreate_cases {ty : Ty V} (s : Mem V) (d : Loc) :
    (plainOps ty).create d s = some (.error .ub) ∨
      (s.cells d ≠ none ∧ ∃ s', (plainOps ty).create d s = some (.ok ((), s')) ∧ ∀ l', s.cells l' = none → s'.cells l' = none) := by
  unfold plainOps
  dsimp only
  rcases load_cases s d with h | ⟨y, h⟩
  · exact Or.inl (bind_error h)
  · rw [bind_ok h]
    rcases store_cases s.bump d (.obj (some ty.dflt)) with h1 | ⟨s', h1, h2⟩
    · exact Or.inl h1
    · refine Or.inr ⟨?_, s', h1, h2⟩
      intro hn
      rw [store_none (s := s.bump) hn] at h1
      cases h1

/-- copying bits onto a region with an unallocated slot -/
theorem memcpy_bad {s : Mem V} {b i j n : Nat} {src : Loc} (hj : j < n) (h : s.cells (b, i + j) = none) : CC.memcpy (b, i) src n s = some (.error .ub) := by
  unfold CC.memcpy
  split
  · rfl
  · exact memmove_bad hj h

/-- the fragment consists of whole blocks: a slot is allocated only if the header of its block is -/
def Closed (F : HProp V) : Prop := ∀ h, F h → ∀ b i, h (b, i) ≠ none → h (b, 0) ≠ none

theorem Closed.emp : Closed (V := V) emp := by
  intro h hh b i hi
  cases hh
  exact absurd rfl hi

/-- the rest of the memory has no slot of a block that is owned here -/
theorem Closed.notIn {P F : HProp V} (hF : Closed F) {b n i : Nat} {h : Heap V} (hh : ((blk b n ∗ P) ∗ F) h) (hP : NotIn (b, i) (blk b n ∗ P)) : h (b, i) = none := by
  obtain ⟨h1, h2, hd, rfl, hP1, hF2⟩ := hh
  have hb : h1 (b, 0) ≠ none := by
    have := pts_sep_cells hP1
    rw [this]; simp
  have h20 : h2 (b, 0) = none := (hd (b, 0)).resolve_left hb
  have h2i : h2 (b, i) = none := by
    by_cases hc : h2 (b, i) = none
    · exact hc
    · exact absurd h20 (hF h2 hF2 b i hc)
  have h1i := hP h1 hP1
  show Heap.union h1 h2 (b, i) = none
  simp [Heap.union, h1i, h2i]

end CC
