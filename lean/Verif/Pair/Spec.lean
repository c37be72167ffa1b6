import Verif.Pair.Model
import Verif.Core.Bad
import Verif.Spec.Order
/-!
# Specifications of the pair functions
-/
namespace CC.Pair
open CC.Tac
variable {V W₁ W₂ β : Type} {nf : Prop} {T : Nat → Ops V}

/-- the fields of a pair -/
def fields (p t₁ t₂ x y : Nat) : HProp V := fld p 1 t₁ ∗ fld p 2 t₂ ∗ fld p 3 x ∗ fld p 4 y

/-- a pair struct somewhere in memory that refers to two constructed objects with values `w₁`, `w₂` (what `c_make_pair` builds) -/
def refPair {t₁ t₂ : Nat} (e₁ : ElemSpec nf (T t₁) W₁) (e₂ : ElemSpec nf (T t₂) W₂) (p x y : Nat) (w₁ : W₁) (w₂ : W₂) : HProp V :=
  fields p t₁ t₂ x y ∗ cell e₁ (x, 1) w₁ ∗ cell e₂ (y, 1) w₂

/-- a pair object that owns its two components: what a map stores (the block of the struct itself excluded) -/
def ownPair {t₁ t₂ : Nat} (e₁ : ElemSpec nf (T t₁) W₁) (e₂ : ElemSpec nf (T t₂) W₂) (p : Nat) (w₁ : W₁) (w₂ : W₂) : HProp V :=
  ∃ₛ x y, refPair e₁ e₂ p x y w₁ w₂ ∗ blk x 1 ∗ blk y 1

theorem dealloc1 {t p : Nat} {u : Val V} (ht : t ≠ 0) : Triple nf (blk p 1 ∗ pts (p, 1) u) (deallocate t p) (fun _ => emp) := by
  unfold deallocate
  steps
  · simpa using ht
  exact free1

theorem dealloc0 {t : Nat} (ht : t ≠ 0) : Triple (V := V) nf emp (deallocate t 0) (fun _ => emp) := by
  unfold deallocate
  steps
  · simpa using ht
  unfold free
  rw [if_pos rfl]
  exact Triple.ret (ent_refl _)

theorem alloc1 {P : HProp V} {Q : β → HProp V} {k : Addr → M V β} {t : Nat} (ht : t ≠ 0) (hfail : ¬ nf → Triple nf P (k 0) Q)
    (hok : ∀ a, a ≠ 0 → Triple nf (blk a 1 ∗ pts (a,1) (.obj none) ∗ P) (k a) Q) :
    Triple nf P (allocate t >>= k) Q := by
  unfold allocate
  rw [bind_assoc]
  steps
  · simpa using ht
  exact mallocO1 hfail hok

/-- `c_pair_copy` into a struct whose pointers are zero -/
theorem pairCopy_spec {t₁ t₂ d s x y j₁ j₂ : Nat} {w₁ : W₁} {w₂ : W₂} {e₁ : ElemSpec nf (T t₁) W₁} {e₂ : ElemSpec nf (T t₂) W₂} (h₁ : t₁ ≠ 0) (h₂ : t₂ ≠ 0) :
    Triple nf (refPair e₁ e₂ s x y w₁ w₂ ∗ fields d j₁ j₂ 0 0) (pairCopy T d s)
      (fun _ => refPair e₁ e₂ s x y w₁ w₂ ∗ ∃ₛ x' y', if x' = 0 ∨ y' = 0 then ⌜¬ nf⌝ ∗ fields d t₁ t₂ x' y' else refPair e₁ e₂ d x' y' w₁ w₂ ∗ blk x' 1 ∗ blk y' 1) := by
  unfold pairCopy
  simp only [refPair, fields]
  step
  step
  step
  step
  step
  step
  · rfl
  step
  step
  · rfl
  step
  step
  · simpa using h₁
  step
  step
  · simpa using h₂
  apply alloc1 h₁
  · intro hn
    step
    apply alloc1 h₂
    · intro _
      step
      rw [if_pos (Or.inl rfl)]
      call (dealloc0 h₁)
      intro _
      call (dealloc0 h₂)
      intro _
      xexists 0, 0
      rw [if_pos (Or.inl rfl)]
      cancel
    · intro y' hy
      step
      rw [if_pos (Or.inl rfl)]
      call (dealloc0 h₁)
      intro _
      call (dealloc1 (p := y') (u := .obj none) h₂)
      intro _
      xexists 0, y'
      rw [if_pos (Or.inl rfl)]
      cancel
  · intro x' hx
    step
    apply alloc1 h₂
    · intro hn
      step
      rw [if_pos (Or.inr rfl)]
      call (dealloc1 (p := x') (u := .obj none) h₁)
      intro _
      call (dealloc0 h₂)
      intro _
      xexists x', 0
      rw [if_pos (Or.inr rfl)]
      cancel
    · intro y' hy
      step
      rw [if_neg (fun h => h.elim hx hy)]
      step
      refine Triple.pre (P' := (cell e₁ (x, 1) w₁ ∗ ∃ₛ u, pts (x', 1) u) ∗ (fld s 1 t₁ ∗ fld s 2 t₂ ∗ fld s 3 x ∗ fld s 4 y ∗ cell e₂ (y, 1) w₂ ∗
        fld d 1 t₁ ∗ fld d 2 t₂ ∗ fld d 3 x' ∗ fld d 4 y' ∗ blk x' 1 ∗ blk y' 1 ∗ ∃ₛ u, pts (y', 1) u)) ?_ ?_
      · xexists .obj none, .obj none
        cancel
      call (copyCell_spec (e := e₁) (l := (x', 1)) (s := (x, 1)) (w := w₁))
      intro _
      step
      call (copyCell_spec (e := e₂) (l := (y', 1)) (s := (y, 1)) (w := w₂))
      intro _
      xexists x', y'
      rw [if_neg (fun h => h.elim hx hy)]
      cancel

/-- `c_pair_create` in a struct with types set and pointers zero -/
theorem pairCreate_spec {t₁ t₂ d : Nat} {e₁ : ElemSpec nf (T t₁) W₁} {e₂ : ElemSpec nf (T t₂) W₂} (h₁ : t₁ ≠ 0) (h₂ : t₂ ≠ 0) :
    Triple nf (fields d t₁ t₂ 0 0) (pairCreate T d)
      (fun _ => ∃ₛ x' y', if x' = 0 ∨ y' = 0 then ⌜¬ nf⌝ ∗ fields d t₁ t₂ x' y' else refPair e₁ e₂ d x' y' e₁.dflt e₂.dflt ∗ blk x' 1 ∗ blk y' 1) := by
  unfold pairCreate
  simp only [refPair, fields]
  step
  step
  · rfl
  step
  step
  · rfl
  step
  step
  · simpa using h₁
  step
  step
  · simpa using h₂
  apply alloc1 h₁
  · intro hn
    step
    apply alloc1 h₂
    · intro _
      step
      rw [if_pos (Or.inl rfl)]
      call (dealloc0 h₁)
      intro _
      call (dealloc0 h₂)
      intro _
      xexists 0, 0
      rw [if_pos (Or.inl rfl)]
      cancel
    · intro y' hy
      step
      rw [if_pos (Or.inl rfl)]
      call (dealloc0 h₁)
      intro _
      call (dealloc1 (p := y') (u := .obj none) h₂)
      intro _
      xexists 0, y'
      rw [if_pos (Or.inl rfl)]
      cancel
  · intro x' hx
    step
    apply alloc1 h₂
    · intro hn
      step
      rw [if_pos (Or.inr rfl)]
      call (dealloc1 (p := x') (u := .obj none) h₁)
      intro _
      call (dealloc0 h₂)
      intro _
      xexists x', 0
      rw [if_pos (Or.inr rfl)]
      cancel
    · intro y' hy
      step
      rw [if_neg (fun h => h.elim hx hy)]
      refine Triple.pre (P' := (∃ₛ u, pts (x', 1) u) ∗ (
        fld d 1 t₁ ∗ fld d 2 t₂ ∗ fld d 3 x' ∗ fld d 4 y' ∗ blk x' 1 ∗ blk y' 1 ∗ ∃ₛ u, pts (y', 1) u)) ?_ ?_
      · xexists .obj none, .obj none
        cancel
      call (createCell_spec (e := e₁) (l := (x', 1)))
      intro _
      call (createCell_spec (e := e₂) (l := (y', 1)))
      intro _
      xexists x', y'
      rw [if_neg (fun h => h.elim hx hy)]
      cancel

/-- `c_pair_destroy` releases both components -/
theorem pairDestroy_spec {t₁ t₂ p : Nat} {w₁ : W₁} {w₂ : W₂} {e₁ : ElemSpec nf (T t₁) W₁} {e₂ : ElemSpec nf (T t₂) W₂} (h₁ : t₁ ≠ 0) (h₂ : t₂ ≠ 0) :
    Triple nf (ownPair e₁ e₂ p w₁ w₂) (pairDestroy T p) (fun _ => ∃ₛ x y, fields p t₁ t₂ x y) := by
  unfold pairDestroy ownPair
  xintro x y
  simp only [refPair, fields]
  step
  step
  · simpa using h₁
  step
  call (destroyCell_spec (e := e₁) (l := (x, 1)) (w := w₁))
  intro _
  xintro u
  call (dealloc1 (p := x) (u := u) h₁)
  intro _
  step
  step
  · simpa using h₂
  step
  call (destroyCell_spec (e := e₂) (l := (y, 1)) (w := w₂))
  intro _
  xintro u
  call (dealloc1 (p := y) (u := u) h₂)
  intro _
  xexists x, y
  cancel

/-! ## plain components -/

/-- a pair struct referring to two plain values -/
def valPair (p t₁ t₂ x y : Nat) (v₁ v₂ : V) : HProp V := fields p t₁ t₂ x y ∗ pts (x, 1) (.obj (some v₁)) ∗ pts (y, 1) (.obj (some v₂))

theorem pairAssign_spec {t₁ t₂ d s x y x' y' s₁ s₂ : Nat} {v₁ v₂ u₁ u₂ : V} (h₁ : t₁ ≠ 0) (h₂ : t₂ ≠ 0) :
    Triple nf (valPair d t₁ t₂ x y v₁ v₂ ∗ valPair s s₁ s₂ x' y' u₁ u₂) (pairAssign d s) (fun _ => valPair d t₁ t₂ x y u₁ u₂ ∗ valPair s s₁ s₂ x' y' u₁ u₂) := by
  unfold pairAssign assignV
  simp only [valPair, fields, bind_assoc]
  step
  step
  · simpa using h₁
  step
  step
  step
  step
  step
  step
  step
  · simpa using h₂
  step
  step
  step
  step
  rw [← bind_pure (store _ _)]
  step
  apply Triple.ret
  cancel

variable {U : Types V}

/-- dictionary order of pairs -/
def lexLess (l₁ l₂ : V → V → Bool) (a b : V × V) : Bool := l₁ a.1 b.1 || (!l₁ b.1 a.1 && l₂ a.2 b.2)

theorem pairLess_spec {t₁ t₂ p q x y x' y' s₁ s₂ : Nat} {v₁ v₂ u₁ u₂ : V} (h₁ : t₁ ≠ 0) (h₂ : t₂ ≠ 0) :
    Triple nf (valPair p t₁ t₂ x y v₁ v₂ ∗ valPair q s₁ s₂ x' y' u₁ u₂) (pairLess U p q)
      (fun r => ⌜r = lexLess (U t₁).less (U t₂).less (v₁, v₂) (u₁, u₂)⌝ ∗ valPair p t₁ t₂ x y v₁ v₂ ∗ valPair q s₁ s₂ x' y' u₁ u₂) := by
  unfold pairLess lessV
  simp only [valPair, fields, bind_assoc, pure_bind]
  step
  step
  · simpa using h₁
  step
  step
  · simpa using h₂
  step
  step
  step
  step
  cases e1 : (U t₁).less v₁ u₁
  · simp only [Bool.false_eq_true, ↓reduceIte]
    step
    step
    cases e2 : (U t₁).less u₁ v₁
    · simp only [Bool.false_eq_true, ↓reduceIte]
      step
      step
      step
      step
      apply Triple.ret
      cancel
      simp [lexLess, e1, e2]
    · simp only [↓reduceIte]
      apply Triple.ret
      cancel
      simp [lexLess, e1, e2]
  · simp only [↓reduceIte]
    apply Triple.ret
    cancel
    simp [lexLess, e1]

theorem pairEqual_spec {t₁ t₂ p q x y x' y' s₁ s₂ : Nat} {v₁ v₂ u₁ u₂ : V} (h₁ : t₁ ≠ 0) (h₂ : t₂ ≠ 0) :
    Triple nf (valPair p t₁ t₂ x y v₁ v₂ ∗ valPair q s₁ s₂ x' y' u₁ u₂) (pairEqual U p q)
      (fun r => ⌜r = ((U t₁).equal v₁ u₁ && (U t₂).equal v₂ u₂)⌝ ∗ valPair p t₁ t₂ x y v₁ v₂ ∗ valPair q s₁ s₂ x' y' u₁ u₂) := by
  unfold pairEqual equalV
  simp only [valPair, fields, bind_assoc, pure_bind]
  step
  step
  · simpa using h₁
  step
  step
  · simpa using h₂
  step
  step
  step
  step
  cases e1 : (U t₁).equal v₁ u₁
  · simp only [Bool.false_eq_true, ↓reduceIte]
    apply Triple.ret
    cancel
  · simp only [↓reduceIte]
    step
    step
    step
    step
    apply Triple.ret
    cancel

/-- the dictionary order of two strict weak orders is one -/
theorem lexLess_strictWeak {l₁ l₂ : V → V → Bool} (h₁ : StrictWeak l₁) (h₂ : StrictWeak l₂) : StrictWeak (lexLess l₁ l₂) := by
  refine ⟨fun a => ?_, fun a b c hab hbc => ?_, fun a b c hab hbc => ?_⟩
  · simp [lexLess, h₁.irrefl, h₂.irrefl]
  · simp only [lexLess, Bool.or_eq_true, Bool.and_eq_true, Bool.not_eq_true'] at *
    rcases hab with hab | ⟨hab, hab'⟩ <;> rcases hbc with hbc | ⟨hbc, hbc'⟩
    · exact Or.inl (h₁.trans _ _ _ hab hbc)
    · left
      cases h : l₁ a.1 c.1
      · have := h₁.negtrans h hbc
        rw [hab] at this; cases this
      · rfl
    · left
      cases h : l₁ a.1 c.1
      · have := h₁.negtrans hab h
        rw [hbc] at this; cases this
      · rfl
    · exact Or.inr ⟨h₁.negtrans hbc hab, h₂.trans _ _ _ hab' hbc'⟩
  · simp only [lexLess, Bool.or_eq_false_iff, Bool.and_eq_false_iff, Bool.not_eq_false'] at *
    obtain ⟨⟨a1, a2⟩, a3, a4⟩ := hab
    obtain ⟨⟨b1, b2⟩, b3, b4⟩ := hbc
    have a2 := a2.resolve_left (by rw [a3]; simp)
    have a4 := a4.resolve_left (by rw [a1]; simp)
    have b2 := b2.resolve_left (by rw [b3]; simp)
    have b4 := b4.resolve_left (by rw [b1]; simp)
    have c1 := h₁.incomp_trans _ _ _ ⟨a1, a3⟩ ⟨b1, b3⟩
    have c2 := h₂.incomp_trans _ _ _ ⟨a2, a4⟩ ⟨b2, b4⟩
    exact ⟨⟨c1.1, Or.inr c2.1⟩, c1.2, Or.inr c2.2⟩

end CC.Pair
