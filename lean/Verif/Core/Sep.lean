import Verif.Core.Mem
/-!
# A small separation logic for `M V` programs
-/

namespace CC

variable {V α β : Type}

/-- A heap fragment. -/
abbrev Heap (V : Type) := Loc → Option (Val V)

/-- Assertions about heap fragments. -/
def HProp (V : Type) := Heap V → Prop

def Heap.empty : Heap V := fun _ => none
def Heap.union (h₁ h₂ : Heap V) : Heap V := fun l => (h₁ l).or (h₂ l)
def Heap.disj (h₁ h₂ : Heap V) : Prop := ∀ l, h₁ l = none ∨ h₂ l = none

/-- The empty fragment. -/
def emp : HProp V := fun h => h = Heap.empty
/-- A pure fact and the empty fragment. -/
def hpure (p : Prop) : HProp V := fun h => p ∧ h = Heap.empty
/-- The fragment consisting of exactly one slot. -/
def pts (l : Loc) (v : Val V) : HProp V :=
  fun h => l.1 ≠ 0 ∧ h = fun l' => if l' = l then some v else none
/-- The fragment splits into two disjoint parts. -/
def sep (P Q : HProp V) : HProp V :=
  fun h => ∃ h₁ h₂, Heap.disj h₁ h₂ ∧ h = Heap.union h₁ h₂ ∧ P h₁ ∧ Q h₂
def hex (P : α → HProp V) : HProp V := fun h => ∃ a, P a h
def ent (P Q : HProp V) : Prop := ∀ h, P h → Q h

infixr:60 " ∗ " => sep
infix:45 " ⊢ₛ " => ent
notation "⌜" p "⌝" => hpure p
/-- integer field `i` of block `a` contains `n` -/
abbrev fld (a : Addr) (i : Nat) (n : Nat) : HProp V := pts (a, i) (.num n)

open Lean in
/-- `∃ₛ x y, P`. -/
syntax "∃ₛ " ident+ ", " term : term
macro_rules
  | `(∃ₛ $x:ident, $b) => `(hex fun $x => $b)
  | `(∃ₛ $x:ident $y:ident $ys:ident*, $b) => `(hex fun $x => ∃ₛ $y $ys*, $b)

/-- Total-correctness triple with the frame built in: started in any memory that splits into a fragment satisfying `P`
and any rest, `m` terminates without fault, its result and the new fragment satisfy `Q`, and the rest is untouched
(nothing is leaked, because the new fragment is described exactly).  The allocator is arbitrary, except that
if `nf` ("no failures") holds then malloc never fails: `Triple False` speaks about every allocator, `Triple True` about
allocators that never fail; theorems are proved for every `nf` and their postconditions say what `nf` adds. -/
def Triple (nf : Prop) (P : HProp V) (m : M V α) (Q : α → HProp V) : Prop :=
  ∀ (s : Mem V) (F : HProp V), (nf → ∀ t, s.orc t ≠ 0) → (P ∗ F) s.cells →
    ∃ a s', m s = some (.ok (a, s')) ∧ s'.orc = s.orc ∧ (Q a ∗ F) s'.cells

/-! ## Heap algebra -/

theorem Heap.disj_comm {h₁ h₂ : Heap V} (h : Heap.disj h₁ h₂) : Heap.disj h₂ h₁ :=
  fun l => (h l).symm

theorem Heap.union_comm {h₁ h₂ : Heap V} (h : Heap.disj h₁ h₂) : Heap.union h₁ h₂ = Heap.union h₂ h₁ := by
  funext l
  simp only [Heap.union]
  rcases h l with h | h <;> simp [h]

theorem Heap.union_assoc (h₁ h₂ h₃ : Heap V) :
    Heap.union (Heap.union h₁ h₂) h₃ = Heap.union h₁ (Heap.union h₂ h₃) := by
  funext l; simp [Heap.union, Option.or_assoc]

@[simp] theorem Heap.union_empty (h : Heap V) : Heap.union h Heap.empty = h := by
  funext l; simp [Heap.union, Heap.empty]
@[simp] theorem Heap.empty_union (h : Heap V) : Heap.union Heap.empty h = h := by
  funext l; simp [Heap.union, Heap.empty]

theorem Heap.disj_union_left {h₁ h₂ h₃ : Heap V} :
    Heap.disj (Heap.union h₁ h₂) h₃ ↔ Heap.disj h₁ h₃ ∧ Heap.disj h₂ h₃ := by
  simp only [Heap.disj, Heap.union, Option.or_eq_none_iff]
  grind

theorem Heap.disj_union_right {h₁ h₂ h₃ : Heap V} :
    Heap.disj h₁ (Heap.union h₂ h₃) ↔ Heap.disj h₁ h₂ ∧ Heap.disj h₁ h₃ := by
  simp only [Heap.disj, Heap.union, Option.or_eq_none_iff]
  grind

theorem sep_comm (P Q : HProp V) : (P ∗ Q) = (Q ∗ P) := by
  funext h
  apply propext
  constructor <;>
  · rintro ⟨h₁, h₂, hd, rfl, hp, hq⟩
    exact ⟨h₂, h₁, Heap.disj_comm hd, Heap.union_comm hd, hq, hp⟩

theorem sep_assoc (P Q R : HProp V) : ((P ∗ Q) ∗ R) = (P ∗ Q ∗ R) := by
  funext h
  apply propext
  constructor
  · rintro ⟨h₁₂, h₃, hd, rfl, ⟨h₁, h₂, hd', rfl, hp, hq⟩, hr⟩
    rw [Heap.disj_union_left] at hd
    exact ⟨h₁, Heap.union h₂ h₃, Heap.disj_union_right.2 ⟨hd', hd.1⟩, Heap.union_assoc .., hp,
      h₂, h₃, hd.2, rfl, hq, hr⟩
  · rintro ⟨h₁, h₂₃, hd, rfl, hp, ⟨h₂, h₃, hd', rfl, hq, hr⟩⟩
    rw [Heap.disj_union_right] at hd
    exact ⟨Heap.union h₁ h₂, h₃, Heap.disj_union_left.2 ⟨hd.2, hd'⟩, (Heap.union_assoc ..).symm,
      ⟨h₁, h₂, hd.1, rfl, hp, hq⟩, hr⟩

theorem sep_left_comm (P Q R : HProp V) : (P ∗ Q ∗ R) = (Q ∗ P ∗ R) := by
  rw [← sep_assoc, sep_comm P Q, sep_assoc]

@[simp] theorem sep_emp (P : HProp V) : (P ∗ emp) = P := by
  funext h
  apply propext
  constructor
  · rintro ⟨h₁, h₂, _, rfl, hp, rfl⟩; simpa using hp
  · intro hp; exact ⟨h, Heap.empty, fun l => Or.inr rfl, by simp, hp, rfl⟩

@[simp] theorem emp_sep (P : HProp V) : (emp ∗ P) = P := by rw [sep_comm, sep_emp]

instance : Std.Associative (sep (V := V)) := ⟨sep_assoc⟩
instance : Std.Commutative (sep (V := V)) := ⟨sep_comm⟩

theorem hpure_true : (⌜True⌝ : HProp V) = emp := by
  funext h; simp [hpure, emp]

theorem hpure_sep_apply {p : Prop} {P : HProp V} {h : Heap V} : (⌜p⌝ ∗ P) h ↔ p ∧ P h := by
  constructor
  · rintro ⟨h₁, h₂, _, rfl, ⟨hp, rfl⟩, hP⟩; simpa using ⟨hp, hP⟩
  · rintro ⟨hp, hP⟩; exact ⟨Heap.empty, h, fun l => Or.inl rfl, by simp, ⟨hp, rfl⟩, hP⟩

theorem hpure_and {p q : Prop} : (⌜p ∧ q⌝ : HProp V) = (⌜p⌝ ∗ ⌜q⌝) := by
  funext h
  apply propext
  rw [hpure_sep_apply]
  simp only [hpure]; exact and_assoc

theorem hex_sep {P : α → HProp V} {Q : HProp V} : (hex P ∗ Q) = hex (fun a => P a ∗ Q) := by
  funext h
  apply propext
  constructor
  · rintro ⟨h₁, h₂, hd, rfl, ⟨a, hp⟩, hq⟩; exact ⟨a, h₁, h₂, hd, rfl, hp, hq⟩
  · rintro ⟨a, h₁, h₂, hd, rfl, hp, hq⟩; exact ⟨h₁, h₂, hd, rfl, ⟨a, hp⟩, hq⟩

theorem sep_mono {P P' Q Q' : HProp V} (h₁ : P ⊢ₛ P') (h₂ : Q ⊢ₛ Q') : (P ∗ Q) ⊢ₛ (P' ∗ Q') := by
  rintro h ⟨a, b, hd, rfl, hp, hq⟩; exact ⟨a, b, hd, rfl, h₁ _ hp, h₂ _ hq⟩

theorem ent_refl (P : HProp V) : P ⊢ₛ P := fun _ h => h
theorem ent_trans {P Q R : HProp V} (h₁ : P ⊢ₛ Q) (h₂ : Q ⊢ₛ R) : P ⊢ₛ R := fun _ h => h₂ _ (h₁ _ h)
theorem ent_of_eq {P Q : HProp V} (h : P = Q) : P ⊢ₛ Q := h ▸ ent_refl P

/-! ## Structural rules for entailment -/

theorem ent_cancel {A R R' : HProp V} (h : R ⊢ₛ R') : (A ∗ R) ⊢ₛ (A ∗ R') := sep_mono (ent_refl _) h
theorem ent_pure_right {p : Prop} {P R : HProp V} (hp : p) (h : P ⊢ₛ R) : P ⊢ₛ (⌜p⌝ ∗ R) :=
  fun s hs => hpure_sep_apply.2 ⟨hp, h s hs⟩
theorem ent_pure_left {p : Prop} {P R : HProp V} (h : p → P ⊢ₛ R) : (⌜p⌝ ∗ P) ⊢ₛ R :=
  fun s hs => h (hpure_sep_apply.1 hs).1 s (hpure_sep_apply.1 hs).2
theorem ent_ex_right {P : HProp V} {Q : α → HProp V} (a : α) (h : P ⊢ₛ Q a) : P ⊢ₛ hex Q :=
  fun s hs => ⟨a, h s hs⟩
theorem ent_ex_left {P : α → HProp V} {Q : HProp V} (h : ∀ a, P a ⊢ₛ Q) : hex P ⊢ₛ Q :=
  fun s ⟨a, hs⟩ => h a s hs
theorem ent_ex_left' {P : α → HProp V} {Q R : HProp V} (h : ∀ a, (P a ∗ R) ⊢ₛ Q) : (hex P ∗ R) ⊢ₛ Q := by
  rw [hex_sep]; exact ent_ex_left h
theorem ent_ex_right' {P : HProp V} {Q : α → HProp V} {R : HProp V} (a : α) (h : P ⊢ₛ Q a ∗ R) : P ⊢ₛ hex Q ∗ R := by
  rw [hex_sep]; exact ent_ex_right a h
theorem ent_congr_left {P P' Q : HProp V} (e : P = P') (h : P' ⊢ₛ Q) : P ⊢ₛ Q := e ▸ h
theorem ent_congr_right {P Q Q' : HProp V} (e : Q = Q') (h : P ⊢ₛ Q') : P ⊢ₛ Q := e ▸ h

/-- Two slots that are both owned are different. -/
theorem pts_pts_ne {l₁ l₂ : Loc} {v₁ v₂ : Val V} {R : HProp V} {h : Heap V}
    (hh : (pts l₁ v₁ ∗ pts l₂ v₂ ∗ R) h) : l₁ ≠ l₂ := by
  rintro rfl
  obtain ⟨h₁, h₂, hd, rfl, ⟨_, rfl⟩, ⟨h₃, h₄, hd', rfl, ⟨_, rfl⟩, _⟩⟩ := hh
  have := hd l₁
  simp [Heap.union] at this

theorem pts_ne_zero {l : Loc} {v : Val V} {R : HProp V} {h : Heap V} (hh : (pts l v ∗ R) h) : l.1 ≠ 0 := by
  obtain ⟨h₁, h₂, hd, rfl, ⟨h, _⟩, _⟩ := hh; exact h

theorem pts_sep_cells {l : Loc} {v : Val V} {R : HProp V} {h : Heap V} (hh : (pts l v ∗ R) h) : h l = some v := by
  obtain ⟨h₁, h₂, hd, rfl, ⟨_, rfl⟩, _⟩ := hh; simp [Heap.union]

theorem pts_update {l : Loc} {v v' : Val V} {R : HProp V} {h : Heap V} (hh : (pts l v ∗ R) h) :
    (pts l v' ∗ R) (fun l' => if l' = l then some v' else h l') := by
  obtain ⟨h₁, h₂, hd, rfl, ⟨h0, rfl⟩, hR⟩ := hh
  refine ⟨fun l' => if l' = l then some v' else none, h₂, ?_, ?_, ⟨h0, rfl⟩, hR⟩
  · intro l'
    have := hd l'
    by_cases e : l' = l <;> simp_all
  · funext l'
    by_cases e : l' = l <;> simp [Heap.union, e]

/-! ## Rules for triples -/

namespace Triple
variable {nf : Prop} {P P' R : HProp V} {Q Q' : α → HProp V} {m : M V α} {k : α → M V β} {QB : β → HProp V}

theorem conseq (h : Triple nf P' m Q') (h₁ : P ⊢ₛ P') (h₂ : ∀ a, Q' a ⊢ₛ Q a) : Triple nf P m Q := by
  intro s F hnf hs
  obtain ⟨a, s', e, ho, hq⟩ := h s F hnf (sep_mono h₁ (ent_refl _) _ hs)
  exact ⟨a, s', e, ho, sep_mono (h₂ a) (ent_refl _) _ hq⟩

theorem pre (h₁ : P ⊢ₛ P') (h : Triple nf P' m Q) : Triple nf P m Q := conseq h h₁ fun _ => ent_refl _
theorem post (h : Triple nf P m Q') (h₂ : ∀ a, Q' a ⊢ₛ Q a) : Triple nf P m Q := conseq h (ent_refl _) h₂
theorem congrPre (e : P = P') (h : Triple nf P' m Q) : Triple nf P m Q := e ▸ h

theorem frame (h : Triple nf P m Q) : Triple nf (P ∗ R) m (fun a => Q a ∗ R) := by
  intro s F hnf hs
  rw [sep_assoc] at hs
  obtain ⟨a, s', e, ho, hq⟩ := h s (R ∗ F) hnf hs
  exact ⟨a, s', e, ho, by rw [sep_assoc]; exact hq⟩

theorem bind (h : Triple nf P m Q) (hk : ∀ a, Triple nf (Q a) (k a) QB) : Triple nf P (m >>= k) QB := by
  intro s F hnf hs
  obtain ⟨a, s', e, ho, hq⟩ := h s F hnf hs
  obtain ⟨b, s'', e', ho', hq'⟩ := hk a s' F (fun h t => by rw [ho]; exact hnf h t) hq
  exact ⟨b, s'', by simp [Bind.bind, StateT.bind, ExceptT.bind, ExceptT.mk, Option.bind, e, ExceptT.bindCont, e'],
    ho'.trans ho, hq'⟩

theorem bind_frame {P0 : HProp V} (h : Triple nf P0 m Q) (hp : P ⊢ₛ P0 ∗ R)
    (hk : ∀ a, Triple nf (Q a ∗ R) (k a) QB) : Triple nf P (m >>= k) QB :=
  bind (pre hp (frame h)) hk

theorem call_frame {P0 : HProp V} {Q0 : α → HProp V} (h : Triple nf P0 m Q0) (hp : P ⊢ₛ P0 ∗ R)
    (hk : ∀ a, (Q0 a ∗ R) ⊢ₛ Q a) : Triple nf P m Q :=
  conseq (frame (R := R) h) hp hk

theorem ret {a : α} (h : P ⊢ₛ Q a) : Triple nf P (Pure.pure a) Q := by
  intro s F hnf hs
  exact ⟨a, s, rfl, rfl, sep_mono h (ent_refl _) _ hs⟩

theorem pure_left {p : Prop} (h : p → Triple nf P m Q) : Triple nf (⌜p⌝ ∗ P) m Q := by
  intro s F hnf hs
  rw [sep_assoc, hpure_sep_apply] at hs
  exact h hs.1 s F hnf hs.2

theorem pure_left' {p : Prop} (h : p → Triple nf emp m Q) : Triple nf ⌜p⌝ m Q := by
  rw [← sep_emp (⌜p⌝ : HProp V)]; exact pure_left h

theorem ex_left {γ : Type} {P : γ → HProp V} (h : ∀ a, Triple nf (P a) m Q) : Triple nf (hex P) m Q := by
  intro s F hnf hs
  rw [hex_sep] at hs
  obtain ⟨a, hs⟩ := hs
  exact h a s F hnf hs

theorem ex_left' {γ : Type} {P : γ → HProp V} (h : ∀ a, Triple nf (P a ∗ R) m Q) : Triple nf (hex P ∗ R) m Q := by
  rw [hex_sep]; exact ex_left h

theorem eq_prog {m' : M V α} (e : m = m') (h : Triple nf P m' Q) : Triple nf P m Q := e ▸ h

/-- Facts that follow from the precondition may be assumed. -/
theorem fact {p : Prop} (hp : ∀ h, P h → p) (h : p → Triple nf P m Q) : Triple nf P m Q := by
  intro s F hnf hs
  have hs' := hs
  obtain ⟨h₁, _, _, _, hP, _⟩ := hs'
  exact h (hp _ hP) s F hnf hs

theorem ne_of_pts {l₁ l₂ : Loc} {v₁ v₂ : Val V} (hne : l₁ ≠ l₂ → Triple nf (pts l₁ v₁ ∗ pts l₂ v₂ ∗ R) m Q) :
    Triple nf (pts l₁ v₁ ∗ pts l₂ v₂ ∗ R) m Q := fact (fun _ => pts_pts_ne) hne

theorem ne_zero {l₁ : Loc} {v₁ : Val V} (hne : l₁.1 ≠ 0 → Triple nf (pts l₁ v₁ ∗ R) m Q) :
    Triple nf (pts l₁ v₁ ∗ R) m Q := fact (fun _ => pts_ne_zero) hne

/-! primitives -/

theorem load_spec {l : Loc} {v : Val V} {k : Val V → M V β} (h : Triple nf (pts l v ∗ P) (k v) QB) :
    Triple nf (pts l v ∗ P) (load l >>= k) QB := by
  intro s F hnf hs
  obtain ⟨b, s', e, ho, hq⟩ := h s.bump F hnf hs
  refine ⟨b, s', ?_, ho, hq⟩
  have hc : s.cells l = some v := by rw [sep_assoc] at hs; exact pts_sep_cells hs
  rw [← e]
  simp [load, Bind.bind, StateT.bind, ExceptT.bind, ExceptT.mk, Option.bind, ExceptT.bindCont, hc,
    get, getThe, MonadStateOf.get, StateT.get, set, StateT.set, Pure.pure, StateT.pure, ExceptT.pure]

theorem store_spec {l : Loc} {v v' : Val V} {k : Unit → M V β} (h : Triple nf (pts l v' ∗ P) (k ()) QB) :
    Triple nf (pts l v ∗ P) (store l v' >>= k) QB := by
  intro s F hnf hs
  have hs' := hs
  rw [sep_assoc] at hs
  have hc := pts_sep_cells hs
  have hu := pts_update (v' := v') hs
  rw [← sep_assoc] at hu
  have hne : ¬ s.cells l = none := by rw [hc]; simp
  have htop : ∀ l', s.top ≤ l'.1 → (if l' = l then some v' else s.cells l') = none := by
      intro l' hl'
      have h2 := s.htop l' hl'
      by_cases e : l' = l
      · exact absurd (e ▸ h2) hne
      · simp only [if_neg e, h2]
  have hnul : ∀ i, (if ((0 : Nat), i) = l then some v' else s.cells (0, i)) = none := by
      intro i
      have h2 := s.hnul i
      by_cases e : (0, i) = l
      · exact absurd (e ▸ h2) hne
      · simp only [if_neg e, h2]
  obtain ⟨b, s', e, ho, hq⟩ := h { s with
    clk := s.clk + 1
    cells := fun l' => if l' = l then some v' else s.cells l'
    htop := htop
    hnul := hnul } F hnf hu
  refine ⟨b, s', ?_, ho, hq⟩
  rw [← e]
  simp [store, Bind.bind, StateT.bind, ExceptT.bind, ExceptT.mk, Option.bind, ExceptT.bindCont, hc,
    get, getThe, MonadStateOf.get, StateT.get, Pure.pure, ExceptT.pure, set, StateT.set]

theorem ldN_spec {l : Loc} {n : Nat} {k : Nat → M V β} (h : Triple nf (pts l (.num n) ∗ P) (k n) QB) :
    Triple nf (pts l (.num n) ∗ P) (ldN l >>= k) QB := by
  unfold ldN; rw [bind_assoc]; exact load_spec (by simpa using h)

theorem stN_spec {l : Loc} {v : Val V} {n : Nat} {k : Unit → M V β} (h : Triple nf (pts l (.num n) ∗ P) (k ()) QB) :
    Triple nf (pts l v ∗ P) (stN l n >>= k) QB := store_spec h

theorem ldP_spec {l : Loc} {b : Addr} {i : Nat} {k : Addr × Nat → M V β}
    (h : Triple nf (pts l (.ptr b i) ∗ P) (k (b, i)) QB) :
    Triple nf (pts l (.ptr b i) ∗ P) (ldP l >>= k) QB := by
  unfold ldP; rw [bind_assoc]; exact load_spec (by simpa using h)

theorem stP_spec {l : Loc} {v : Val V} {p : Addr × Nat} {k : Unit → M V β}
    (h : Triple nf (pts l (.ptr p.1 p.2) ∗ P) (k ()) QB) :
    Triple nf (pts l v ∗ P) (stP l p >>= k) QB := store_spec h

theorem ldV_spec {l : Loc} {v : V} {k : V → M V β} (h : Triple nf (pts l (.obj (some v)) ∗ P) (k v) QB) :
    Triple nf (pts l (.obj (some v)) ∗ P) (ldV l >>= k) QB := by
  unfold ldV; rw [bind_assoc]; exact load_spec (by simpa using h)

theorem construct_spec {l : Loc} {v : V} {k : Unit → M V β} (h : Triple nf (pts l (.obj (some v)) ∗ P) (k ()) QB) :
    Triple nf (pts l (.obj none) ∗ P) (construct l v >>= k) QB := by
  unfold construct; rw [bind_assoc]; exact load_spec (store_spec h)

theorem destroyV_spec {l : Loc} {v : V} {k : Unit → M V β} (h : Triple nf (pts l (.obj none) ∗ P) (k ()) QB) :
    Triple nf (pts l (.obj (some v)) ∗ P) (destroyV l >>= k) QB := by
  unfold destroyV; rw [bind_assoc]; exact load_spec (store_spec h)

theorem cassert_spec {b : Bool} {k : Unit → M V β} (hb : b = true) (h : Triple nf P (k ()) QB) :
    Triple nf P (cassert b >>= k) QB := by
  subst hb; simpa [cassert] using h

end Triple

/-! ## Allocation -/

/-- consecutive slots `i, i+1, ...` of block `a` with the given contents -/
def arr (a : Addr) : Nat → List (Val V) → HProp V
  | _, [] => emp
  | i, v :: vs => pts (a, i) v ∗ arr a (i+1) vs

/-- the allocator's bookkeeping for block `a` of `n` slots -/
abbrev blk (a : Addr) (n : Nat) : HProp V := pts (a, 0) (.sz n)

theorem arr_append {a : Addr} {i : Nat} {xs ys : List (Val V)} :
    arr a i (xs ++ ys) = (arr a i xs ∗ arr a (i + xs.length) ys) := by
  induction xs generalizing i with
  | nil => simp [arr]
  | cons x xs ih =>
    simp only [List.cons_append, arr, ih, sep_assoc, List.length_cons]
    rw [Nat.add_right_comm, ← Nat.add_assoc]

theorem arr_heap {a : Addr} (ha : a ≠ 0) (i : Nat) (vs : List (Val V)) :
    arr a i vs (fun l => if l.1 = a ∧ i ≤ l.2 then vs[l.2 - i]? else none) := by
  induction vs generalizing i with
  | nil =>
    simp only [arr, emp]
    funext l; simp [Heap.empty]
  | cons v vs ih =>
    refine ⟨_, _, ?_, ?_, ⟨ha, rfl⟩, ih (i+1)⟩
    · intro ⟨b, j⟩; grind
    · funext ⟨b, j⟩; simp only [Heap.union]
      by_cases hb : b = a
      · subst hb
        rcases Nat.lt_trichotomy j i with h | h | h
        · have : ¬ i ≤ j := by omega
          have : ¬ i + 1 ≤ j := by omega
          have : j ≠ i := by omega
          simp [*]
        · subst h; simp
        · obtain ⟨d, rfl⟩ : ∃ d, j = i + 1 + d := ⟨j - (i+1), by omega⟩
          have : i + 1 + d - i = d + 1 := by omega
          have : i + 1 + d - (i + 1) = d := by omega
          have : i ≤ i + 1 + d := by omega
          have : i + 1 + d ≠ i := by omega
          simp [*]
      · simp [hb]

theorem arr_inv {a : Addr} {i : Nat} {vs : List (Val V)} {h : Heap V} (hs : arr a i vs h) :
    h = (fun l => if l.1 = a ∧ i ≤ l.2 then vs[l.2 - i]? else none) := by
  induction vs generalizing h i with
  | nil =>
    simp only [arr, emp] at hs
    subst hs; funext l; simp [Heap.empty]
  | cons v vs ih =>
    obtain ⟨h₁, h₂, hd, rfl, ⟨h0, rfl⟩, h1⟩ := hs
    have := ih h1
    subst this
    have h2 := arr_heap h0 i (v :: vs)
    funext ⟨b, j⟩; simp only [Heap.union]
    by_cases hb : b = a
    · subst hb
      rcases Nat.lt_trichotomy j i with h | h | h
      · have : ¬ i ≤ j := by omega
        have : ¬ i + 1 ≤ j := by omega
        have : j ≠ i := by omega
        simp [*]
      · subst h; simp
      · obtain ⟨d, rfl⟩ : ∃ d, j = i + 1 + d := ⟨j - (i+1), by omega⟩
        have : i + 1 + d - i = d + 1 := by omega
        have : i + 1 + d - (i + 1) = d := by omega
        have : i ≤ i + 1 + d := by omega
        have : i + 1 + d ≠ i := by omega
        simp [*]
    · simp [hb]

theorem block_inv {a : Addr} {vs : List (Val V)} {n : Nat} {h : Heap V} (hn : vs.length = n)
    (hs : (blk a n ∗ arr a 1 vs) h) :
    a ≠ 0 ∧ (∀ i, h (a, i) = none ↔ n < i) ∧ (∀ b i, b ≠ a → h (b, i) = none) ∧ h (a, 0) = some (.sz n) := by
  obtain ⟨h₁, h₂, hd, rfl, ⟨h0, rfl⟩, h2⟩ := hs
  have := arr_inv h2
  subst this
  refine ⟨h0, ?_, ?_, by simp [Heap.union]⟩
  · intro i; simp only [Heap.union]
    rcases i with _ | i <;> simp; omega
  · intro b i hb; simp [Heap.union, hb]

namespace Triple
variable {nf : Prop} {P : HProp V} {Q : β → HProp V}

theorem mallocG_spec {n : Nat} {init : (Nat → Nat) → Nat → Val V} {k : Addr → M V β}
    (hfail : ¬ nf → Triple nf P (k 0) Q)
    (hok : ∀ a j, a ≠ 0 →
      Triple nf (blk a n ∗ arr a 1 ((List.range n).map fun i => init j (i+1)) ∗ P) (k a) Q) :
    Triple nf P (mallocG n init >>= k) Q := by
  intro s F hnf hs
  by_cases hc : s.orc s.tick = 0
  · obtain ⟨b, s', e, ho, hq⟩ := hfail (fun h => hnf h _ hc) { s with tick := s.tick + 1, clk := s.clk + 1 } F hnf hs
    refine ⟨b, s', ?_, ho, hq⟩
    rw [← e]
    simp only [mallocG, Bind.bind, StateT.bind, ExceptT.bind, ExceptT.mk, Option.bind, ExceptT.bindCont, hc,
      get, getThe, MonadStateOf.get, StateT.get, Pure.pure, StateT.pure, ExceptT.pure, set, StateT.set, if_true, dif_pos]
  · let a := pick s n
    have ha : a ≠ 0 := by
      simp only [a, pick]; split
      · exact hc
      · have := s.hpos; omega
    have hfree : ∀ i, i ≤ n → s.cells (a, i) = none := by
      intro i hi
      simp only [a, pick]; split
      · rename_i h
        simp only [freeRange, List.all_eq_true, List.mem_range, Option.isNone_iff_eq_none] at h
        exact h i (by omega)
      · exact s.htop _ (Nat.le_refl _)
    let s1 : Mem V := { s with
      tick := s.tick + 1
      clk := s.clk + 1
      cells := fun l => if l.1 = pick s n ∧ l.2 ≤ n then
                  (if l.2 = 0 then some (.sz n) else some (init (s.junk s.tick) l.2)) else s.cells l
      top := max s.top (pick s n + 1)
      hpos := Nat.lt_of_lt_of_le s.hpos (Nat.le_max_left _ _)
      htop := by
        intro l hl
        have : l.1 ≠ pick s n := Nat.ne_of_gt (Nat.le_trans (Nat.le_max_right _ _) hl)
        have h2 := s.htop l (Nat.le_trans (Nat.le_max_left _ _) hl)
        simp [this, h2]
      hnul := by
        intro i
        simp [pick_ne0 hc, s.hnul i] }
    have h1 : ((blk a n ∗ arr a 1 ((List.range n).map fun i => init (s.junk s.tick) (i+1)) ∗ P) ∗ F) s1.cells := by
      have e : ((blk a n ∗ arr a 1 ((List.range n).map fun i => init (s.junk s.tick) (i+1)) ∗ P) ∗ F)
          = ((blk a n ∗ arr a 1 ((List.range n).map fun i => init (s.junk s.tick) (i+1))) ∗ (P ∗ F)) := by
        simp only [sep_assoc]
      rw [e]
      refine ⟨fun l => if l.1 = a ∧ l.2 ≤ n then
                  (if l.2 = 0 then some (.sz n) else some (init (s.junk s.tick) l.2)) else none, s.cells, ?_, ?_, ?_, hs⟩
      · rintro ⟨b, i⟩
        by_cases e : b = a ∧ i ≤ n
        · right; obtain ⟨rfl, hi⟩ := e; exact hfree i hi
        · left; simp [e]
      · funext ⟨b, i⟩
        simp only [Heap.union, s1, a]
        by_cases e : b = pick s n ∧ i ≤ n
        · simp only [e, and_self, if_true]; split <;> rfl
        · simp [e]
      · refine ⟨_, _, ?_, ?_, ⟨ha, rfl⟩, arr_heap ha 1 _⟩
        · rintro ⟨b, i⟩; grind
        · funext ⟨b, i⟩; simp only [Heap.union]
          rcases i with _ | i
          · by_cases hb : b = a <;> simp [hb]
          · by_cases hi : i < n
            · have : i + 1 ≤ n := by omega
              by_cases hb : b = a <;> simp [hb, this, hi]
            · have : ¬ i + 1 ≤ n := by omega
              simp [this, hi]
    obtain ⟨b, s', e, ho, hq⟩ := hok a (s.junk s.tick) ha s1 F hnf h1
    refine ⟨b, s', ?_, ho, hq⟩
    rw [← e]
    simp [mallocG, Bind.bind, StateT.bind, ExceptT.bind, ExceptT.mk, Option.bind, ExceptT.bindCont, hc,
      get, getThe, MonadStateOf.get, StateT.get, Pure.pure, StateT.pure, ExceptT.pure, set, StateT.set, s1, a]

theorem free_spec {n : Nat} {a : Addr} {vs : List (Val V)} {k : Unit → M V β} (hn : vs.length = n)
    (h : Triple nf P (k ()) Q) :
    Triple nf ((blk a n ∗ arr a 1 vs) ∗ P) (free a >>= k) Q := by
  intro s F hnf hs
  rw [sep_assoc] at hs
  obtain ⟨h₁, h₂, hd, hcells, hb, hPF⟩ := hs
  obtain ⟨h0, h1, h2, h3⟩ := block_inv hn hb
  have hfin : (fun l => if l.1 = a ∧ l.2 ≤ n then none else s.cells l) = h₂ := by
    funext ⟨b, i⟩
    have := hd (b, i)
    rw [hcells]; simp only [Heap.union]
    by_cases e : b = a ∧ i ≤ n
    · obtain ⟨rfl, hi⟩ := e
      have h1 := h1 i
      have hne : ¬ h₁ (b, i) = none := by rw [h1]; omega
      simp only [hi, and_self, if_true]
      exact (this.resolve_left hne).symm
    · by_cases hb : b = a
      · subst hb
        have hi : n < i := by simp at e; omega
        have : h₁ (b, i) = none := by rw [h1]; exact hi
        have hi' : ¬ i ≤ n := by omega
        simp [this, hi']
      · simp [e, h2 b i hb]
  obtain ⟨b, s', e, ho, hq⟩ := h { s with
      clk := s.clk + 2
      cells := fun l => if l.1 = a ∧ l.2 ≤ n then none else s.cells l
      htop := by
        intro l hl
        have h2 := s.htop l hl
        simp [h2]
      hnul := by
        intro i
        simp [s.hnul i] } F hnf
    (by simpa only [hfin] using hPF)
  refine ⟨b, s', ?_, ho, hq⟩
  rw [← e]
  have hl : s.cells (a, 0) = some (.sz n) := by rw [hcells]; simp [Heap.union, h3]
  simp [free, h0, load, Bind.bind, StateT.bind, ExceptT.bind, ExceptT.mk, Option.bind, ExceptT.bindCont, hl,
      get, getThe, MonadStateOf.get, StateT.get, Pure.pure, StateT.pure, ExceptT.pure, set, StateT.set]

theorem free_null {k : Unit → M V β} (h : Triple nf P (k ()) Q) :
    Triple nf P (free 0 >>= k) Q := by simpa [free] using h

end Triple
end CC
