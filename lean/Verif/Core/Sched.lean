import Verif.Core.Safe
import Verif.Core.Bad
/-!
# Allocators that grant some requests and refuse others

`Follows s w`: the next `w.length` requests for memory are granted (`true`) or refused (`false`) as `w` says.  `On w P m Q w'` and `BadOn w P m` are what
`m` does under such an allocator: it returns with `Q` and the schedule `w'` is still to come, or ends in undefined behaviour.
-/
namespace CC
open CC.Tac
variable {V α β : Type}

/-- the requests number `t`, `t+1`, … are granted or refused as the list says -/
def FollowsFrom (orc : Nat → Nat) : Nat → List Bool → Prop
  | _, [] => True
  | t, b :: w => (orc t ≠ 0 ↔ b = true) ∧ FollowsFrom orc (t + 1) w

/-- the next requests are granted or refused as the list says -/
def Follows (s : Mem V) (w : List Bool) : Prop := FollowsFrom s.orc s.tick w

/-- an allocator that refuses every request -/
theorem Follows.none {s : Mem V} (h : ∀ t, s.orc t = 0) (n : Nat) : Follows s (List.replicate n false) := by
  unfold Follows
  generalize s.tick = t
  induction n generalizing t with
  | zero => exact trivial
  | succ n ih => exact ⟨by simp [h], ih _⟩

/-- `m` requests no memory -/
def Quiet (m : M V α) : Prop := ∀ s a s', m s = some (.ok (a, s')) → s'.tick = s.tick

theorem Quiet.pure {a : α} : Quiet (Pure.pure a : M V α) := by
  intro s b s' h
  have h : some (Except.ok (a, s)) = some (Except.ok (b, s')) := h
  cases h
  rfl

theorem Quiet.bind {m : M V α} {k : α → M V β} (h : Quiet m) (hk : ∀ a, Quiet (k a)) : Quiet (m >>= k) := by
  intro s b s' hb
  cases hm : m s with
  | none =>
    have : (m >>= k) s = Option.none := by
      simp [Bind.bind, StateT.bind, ExceptT.bind, ExceptT.mk, Option.bind, hm]
    rw [this] at hb; cases hb
  | some r => cases r with
    | error f => rw [bind_error hm] at hb; cases hb
    | ok p =>
      obtain ⟨a, s1⟩ := p
      rw [bind_ok hm] at hb
      rw [hk a _ _ _ hb, h _ _ _ hm]

theorem Quiet.ite {c : Prop} [Decidable c] {m m' : M V α} (h : Quiet m) (h' : Quiet m') : Quiet (if c then m else m') := by
  split
  · exact h
  · exact h'

theorem Quiet.ub : Quiet (CC.ub : M V α) := by intro s a s' h; cases h

theorem Quiet.load {l : Loc} : Quiet (CC.load l : M V (Val V)) := by
  intro s a s' h
  rcases load_cases s l with h1 | ⟨x, h1⟩ <;> rw [h1] at h <;> cases h
  rfl

theorem Quiet.ldP {l : Loc} : Quiet (CC.ldP l : M V _) := by
  refine Quiet.bind .load fun x => ?_
  split
  · exact .pure
  · exact .ub

theorem Quiet.ldN {l : Loc} : Quiet (CC.ldN l : M V _) := by
  refine Quiet.bind .load fun x => ?_
  split
  · exact .pure
  · exact .ub

theorem Quiet.psub {p q : Loc} : Quiet (CC.psub p q : M V _) := Quiet.ite .pure .ub

theorem Quiet.cassert {b : Bool} : Quiet (CC.cassert b : M V _) := by
  unfold CC.cassert
  refine Quiet.ite .pure ?_
  intro s a s' h
  cases h

theorem Quiet.store {l : Loc} {v : Val V} : Quiet (CC.store l v : M V _) := by
  intro s a s' h
  by_cases hn : s.cells l = Option.none
  · rw [store_none hn] at h; cases h
  · simp [CC.store, Bind.bind, StateT.bind, ExceptT.bind, ExceptT.mk, Option.bind, ExceptT.bindCont, hn,
      get, getThe, MonadStateOf.get, StateT.get, Pure.pure, ExceptT.pure, set, StateT.set, MonadStateOf.set] at h
    cases h
    rfl

/-- decides `Quiet` of a straight-line program -/
macro "quiet" : tactic => `(tactic| repeat' first
  | exact Quiet.pure | exact Quiet.ub | exact Quiet.load | exact Quiet.store | exact Quiet.ldP | exact Quiet.ldN | exact Quiet.psub | exact Quiet.cassert
  | assumption | (refine Quiet.bind ?_ fun _ => ?_) | (refine Quiet.ite ?_ ?_))

/-- under the schedule `w`, `m` returns with `Q`, and the schedule `w'` is still to come -/
def On (w : List Bool) (P : HProp V) (m : M V α) (Q : α → HProp V) (w' : List Bool) : Prop := ∀ s : Mem V, Follows s w → P s.cells →
  ∃ a s', m s = some (.ok (a, s')) ∧ s'.orc = s.orc ∧ Follows s' w' ∧ Q a s'.cells

/-- under the schedule `w`, `m` ends in undefined behaviour -/
def BadOn (w : List Bool) (P : HProp V) (m : M V α) : Prop := ∀ s : Mem V, Follows s w → P s.cells → m s = some (.error .ub)

theorem On.quiet {w : List Bool} {P : HProp V} {m : M V α} {Q : α → HProp V} (h : Triple False P m Q) (hq : Quiet m) : On w P m Q w := by
  intro s hw hs
  obtain ⟨a, s', h1, h2, h3⟩ := h.run (F := emp) (s := s) (fun h => h.elim) (by rw [sep_emp]; exact hs)
  rw [sep_emp] at h3
  refine ⟨a, s', h1, h2, ?_, h3⟩
  unfold Follows
  rw [h2, hq _ _ _ h1]
  exact hw

theorem On.ret {w : List Bool} {P : HProp V} {a : α} {Q : α → HProp V} (h : P ⊢ₛ Q a) : On w P (Pure.pure a) Q w :=
  fun s hw hs => ⟨a, s, rfl, rfl, hw, h _ hs⟩

theorem On.bind {w w' w'' : List Bool} {P : HProp V} {m : M V α} {Q : α → HProp V} {k : α → M V β} {R : β → HProp V} (h : On w P m Q w')
    (hk : ∀ a, On w' (Q a) (k a) R w'') : On w P (m >>= k) R w'' := by
  intro s hw hs
  obtain ⟨a, s1, h1, h2, h3, h4⟩ := h s hw hs
  obtain ⟨b, s2, g1, g2, g3, g4⟩ := hk a s1 h3 h4
  exact ⟨b, s2, by rw [bind_ok h1]; exact g1, g2.trans h2, g3, g4⟩

theorem On.pure_left {w w' : List Bool} {p : Prop} {P : HProp V} {m : M V α} {Q : α → HProp V} (h : p → On w P m Q w') : On w (⌜p⌝ ∗ P) m Q w' := by
  intro s hw hs
  rw [hpure_sep_apply] at hs
  exact h hs.1 s hw hs.2

theorem On.pre {w w' : List Bool} {P P' : HProp V} {m : M V α} {Q : α → HProp V} (he : P ⊢ₛ P') (h : On w P' m Q w') : On w P m Q w' :=
  fun s hw hs => h s hw (he _ hs)

theorem On.post {w w' : List Bool} {P : HProp V} {m : M V α} {Q Q' : α → HProp V} (h : On w P m Q w') (he : ∀ a, Q a ⊢ₛ Q' a) : On w P m Q' w' := by
  intro s hw hs
  obtain ⟨a, s', h1, h2, h3, h4⟩ := h s hw hs
  exact ⟨a, s', h1, h2, h3, he _ _ h4⟩

/-- a refused request -/
theorem On.refused {w : List Bool} {P : HProp V} {n : Nat} {init : (Nat → Nat) → Nat → Val V} :
    On (false :: w) P (mallocG n init) (fun r => ⌜r = 0⌝ ∗ P) w := by
  intro s hw hs
  have h0 : s.orc s.tick = 0 := by have := hw.1; simpa using this
  refine ⟨0, { s with tick := s.tick + 1, clk := s.clk + 1 }, ?_, rfl, hw.2, hpure_sep_apply.2 ⟨rfl, hs⟩⟩
  simp [mallocG, Bind.bind, StateT.bind, ExceptT.bind, ExceptT.mk, Option.bind, ExceptT.bindCont, get, getThe, MonadStateOf.get, StateT.get, set,
      StateT.set, Pure.pure, StateT.pure, ExceptT.pure, h0]

/-- a granted request -/
theorem On.granted {w : List Bool} {P : HProp V} {n : Nat} {init : (Nat → Nat) → Nat → Val V} :
    On (true :: w) P (mallocG n init) (fun a => hex fun j => ⌜a ≠ 0⌝ ∗ blk a n ∗ arr a 1 ((List.range n).map fun i => init j (i+1)) ∗ P) w := by
  intro s hw hs
  have h0 : s.orc s.tick ≠ 0 := hw.1.2 rfl
  have h1 : Triple False P (mallocG n init >>= Pure.pure)
      (fun a => hex fun j => if a = 0 then P else ⌜a ≠ 0⌝ ∗ blk a n ∗ arr a 1 ((List.range n).map fun i => init j (i+1)) ∗ P) := by
    refine Triple.mallocG_spec (fun _ => Triple.ret ?_) (fun a j ha => Triple.ret ?_)
    · refine ent_ex_right (fun _ => 0) ?_
      rw [if_pos rfl]
      exact ent_refl _
    · refine ent_ex_right j ?_
      rw [if_neg ha]
      exact ent_pure_right ha (ent_refl _)
  rw [bind_pure] at h1
  obtain ⟨a, s', g1, g2, g3⟩ := h1.run (F := emp) (s := s) (fun h => h.elim) (by rw [sep_emp]; exact hs)
  rw [sep_emp] at g3
  have hr : a = pick s n ∧ s'.tick = s.tick + 1 := by
    simp [mallocG, Bind.bind, StateT.bind, ExceptT.bind, ExceptT.mk, Option.bind, ExceptT.bindCont, h0,
      get, getThe, MonadStateOf.get, StateT.get, Pure.pure, StateT.pure, ExceptT.pure, set, StateT.set] at g1
    cases g1
    exact ⟨rfl, rfl⟩
  have ha : a ≠ 0 := by rw [hr.1]; exact (pick_ne0 h0).symm
  obtain ⟨j, g3⟩ := g3
  simp only [if_neg ha] at g3
  refine ⟨a, s', g1, g2, ?_, j, g3⟩
  unfold Follows
  rw [g2, hr.2]
  exact hw.2

theorem BadOn.bind {w w' : List Bool} {P : HProp V} {m : M V α} {Q : α → HProp V} {k : α → M V β} (h : On w P m Q w') (hk : ∀ a, BadOn w' (Q a) (k a)) :
    BadOn w P (m >>= k) := by
  intro s hw hs
  obtain ⟨a, s1, h1, h2, h3, h4⟩ := h s hw hs
  rw [bind_ok h1]
  exact hk a s1 h3 h4

theorem BadOn.step {w : List Bool} {P : HProp V} {m : M V α} {Q : α → HProp V} {k : α → M V β} (h : Triple False P m Q) (hq : Quiet m)
    (hk : ∀ a, BadOn w (Q a) (k a)) : BadOn w P (m >>= k) := BadOn.bind (.quiet h hq) hk

theorem On.step {w w' : List Bool} {P : HProp V} {m : M V α} {Q : α → HProp V} {k : α → M V β} {R : β → HProp V} (h : Triple False P m Q) (hq : Quiet m)
    (hk : ∀ a, On w (Q a) (k a) R w') : On w P (m >>= k) R w' := On.bind (.quiet h hq) hk

theorem BadOn.head {w : List Bool} {P : HProp V} {m : M V α} {k : α → M V β} (h : BadOn w P m) : BadOn w P (m >>= k) :=
  fun s hw hs => bind_error (h s hw hs)

theorem BadOn.pre {w : List Bool} {P P' : HProp V} {m : M V α} (he : P ⊢ₛ P') (h : BadOn w P' m) : BadOn w P m := fun s hw hs => h s hw (he _ hs)

theorem BadOn.pure_left {w : List Bool} {p : Prop} {P : HProp V} {m : M V α} (h : p → BadOn w P m) : BadOn w (⌜p⌝ ∗ P) m := by
  intro s hw hs
  rw [hpure_sep_apply] at hs
  exact h hs.1 s hw hs.2

theorem BadOn.ex {w : List Bool} {ι : Type} {P : ι → HProp V} {m : M V α} (h : ∀ i, BadOn w (P i) m) : BadOn w (hex P) m := by
  rintro s hw ⟨i, hs⟩
  exact h i s hw hs

theorem On.ex {w w' : List Bool} {ι : Type} {P : ι → HProp V} {m : M V α} {Q : α → HProp V} (h : ∀ i, On w (P i) m Q w') : On w (hex P) m Q w' := by
  rintro s hw ⟨i, hs⟩
  exact h i s hw hs

theorem BadOn.fact {w : List Bool} {p : Prop} {P : HProp V} {m : M V α} (hp : ∀ h, P h → p) (h : p → BadOn w P m) : BadOn w P m :=
  fun s hw hs => h (hp _ hs) s hw hs

theorem On.fact {w w' : List Bool} {p : Prop} {P : HProp V} {m : M V α} {Q : α → HProp V} (hp : ∀ h, P h → p) (h : p → On w P m Q w') : On w P m Q w' :=
  fun s hw hs => h (hp _ hs) s hw hs

/-- a program that only looks -/
theorem BadOn.read {w : List Bool} {P F : HProp V} {m : M V α} {x : α} {k : α → M V β} (h : Triple False P m (fun r => ⌜r = x⌝ ∗ P)) (hq : Quiet m)
    (hk : BadOn w (P ∗ F) (k x)) : BadOn w (P ∗ F) (m >>= k) := by
  refine BadOn.step (Triple.frame h) hq fun r => ?_
  rw [sep_assoc]
  refine BadOn.pure_left ?_
  rintro rfl
  exact hk

theorem On.read {w w' : List Bool} {P F : HProp V} {m : M V α} {x : α} {k : α → M V β} {Q : β → HProp V} (h : Triple False P m (fun r => ⌜r = x⌝ ∗ P)) (hq : Quiet m)
    (hk : On w (P ∗ F) (k x) Q w') : On w (P ∗ F) (m >>= k) Q w' := by
  refine On.step (Triple.frame h) hq fun r => ?_
  rw [sep_assoc]
  refine On.pure_left ?_
  rintro rfl
  exact hk

/-- copying to the NULL pointer -/
theorem BadOn.memcpy_null {w : List Bool} {P : HProp V} {i n : Nat} {src : Loc} (hn : n ≠ 0) : BadOn w P (CC.memcpy (0, i) src n) := by
  intro s _ hs
  unfold CC.memcpy
  split
  · rfl
  · exact memmove_bad (j := 0) (by omega) (s.hnul _)

/-- copying to the NULL pointer, or to storage that is too small -/
theorem BadOn.memcpy {w : List Bool} {P : HProp V} {b i j n : Nat} {src : Loc} (hj : j < n) (h : ∀ c, P c → c (b, i + j) = Option.none) :
    BadOn w P (CC.memcpy (b, i) src n) := by
  intro s _ hs
  unfold CC.memcpy
  split
  · rfl
  · exact memmove_bad hj (h _ hs)

/-! ## No request is granted -/

theorem Exhausted.of_on {n : Nat} {w : List Bool} {P : HProp V} {m : M V α} {Q : α → HProp V} (h : On (List.replicate n false) P m Q w) : Exhausted P m Q := by
  intro s ho hs
  obtain ⟨a, s', h1, h2, _, h3⟩ := h s (Follows.none ho n) hs
  exact ⟨a, s', h1, h2, h3⟩

theorem Exhausted.weaken {P P' : HProp V} {m : M V α} {Q : α → HProp V} (h : P ⊢ₛ P') (hm : Exhausted P' m Q) : Exhausted P m Q := fun s ho hs => hm s ho (h _ hs)

theorem Exhausted.next {P F : HProp V} {m : M V α} {Q : α → HProp V} {k : α → M V β} {R : β → HProp V} (h : Triple False P m Q)
    (hk : ∀ a, Exhausted (Q a ∗ F) (k a) R) : Exhausted (P ∗ F) (m >>= k) R := Exhausted.bind (.of_triple (Triple.frame h)) hk

theorem Exhausted.read {P F : HProp V} {m : M V α} {x : α} {k : α → M V β} {R : β → HProp V} (h : Triple False P m (fun r => ⌜r = x⌝ ∗ P))
    (hk : Exhausted (P ∗ F) (k x) R) : Exhausted (P ∗ F) (m >>= k) R := by
  refine Exhausted.next h fun r => ?_
  rw [sep_assoc]
  refine Exhausted.pure_left ?_
  rintro rfl
  exact hk

/-- when no request is granted, `m` ends in undefined behaviour -/
def Ruined (P : HProp V) (m : M V α) : Prop := ∀ s : Mem V, (∀ t, s.orc t = 0) → P s.cells → m s = some (.error .ub)

theorem Ruined.of_bad {n : Nat} {P : HProp V} {m : M V α} (h : BadOn (List.replicate n false) P m) : Ruined P m := fun s ho hs => h s (Follows.none ho n) hs

theorem Ruined.weaken {P P' : HProp V} {m : M V α} (h : P ⊢ₛ P') (hm : Ruined P' m) : Ruined P m := fun s ho hs => hm s ho (h _ hs)

theorem Ruined.bind {P : HProp V} {m : M V α} {Q : α → HProp V} {k : α → M V β} (h : Exhausted P m Q) (hk : ∀ a, Ruined (Q a) (k a)) : Ruined P (m >>= k) := by
  intro s ho hs
  obtain ⟨a, s', h1, h2, h3⟩ := h s ho hs
  rw [bind_ok h1]
  exact hk a s' (by rw [h2]; exact ho) h3

theorem Ruined.next {P F : HProp V} {m : M V α} {Q : α → HProp V} {k : α → M V β} (h : Triple False P m Q)
    (hk : ∀ a, Ruined (Q a ∗ F) (k a)) : Ruined (P ∗ F) (m >>= k) := Ruined.bind (.of_triple (Triple.frame h)) hk

theorem Ruined.read {P F : HProp V} {m : M V α} {x : α} {k : α → M V β} (h : Triple False P m (fun r => ⌜r = x⌝ ∗ P)) (hk : Ruined (P ∗ F) (k x)) :
    Ruined (P ∗ F) (m >>= k) := by
  refine Ruined.next h fun r => ?_
  rw [sep_assoc]
  intro s ho hs
  rw [hpure_sep_apply] at hs
  obtain ⟨rfl, hs⟩ := hs
  exact hk s ho hs

theorem Ruined.head {P : HProp V} {m : M V α} {k : α → M V β} (h : Ruined P m) : Ruined P (m >>= k) := fun s ho hs => bind_error (h s ho hs)

theorem Ruined.fact {p : Prop} {P : HProp V} {m : M V α} (hp : ∀ h, P h → p) (h : p → Ruined P m) : Ruined P m := fun s ho hs => h (hp _ hs) s ho hs

theorem Exhausted.fact {p : Prop} {P : HProp V} {m : M V α} {Q : α → HProp V} (hp : ∀ h, P h → p) (h : p → Exhausted P m Q) : Exhausted P m Q :=
  fun s ho hs => h (hp _ hs) s ho hs

end CC
