import Verif.Core.Elem
import Verif.Algo.Base
/-!
# Elements that own memory: simulation

The algorithms of `/repo/algorithm` handle elements only through the callbacks of their type and of the caller.  In `Verif.Algo` an element is a value in a slot and assignment copies the value.
Here the elements are objects that may own memory (`ElemSpec`, Core/Elem.lean) and `assign`, `copy`, `destroy`, comparisons and predicates are arbitrary programs.
`Sim` relates a program on such objects with a program on plain values: whenever the latter succeeds, so does the former, and the objects then have the values the plain program computed.
-/
namespace CC.Own
open CC CC.Tac
variable {V W α β γ δ : Type}

/-- the callbacks of a `c_type_info_t` that the algorithms use, include/c_def.h:60-90 -/
structure AOps (V : Type) extends Ops V where
  assign : Loc → Loc → M V Unit      -- `assign dst src`

/-- A proper element type with values in `W` and assignment: the object at `d` keeps its place, gives up or reuses its old resources and gets its own copy of the value of the object at `s`. -/
structure AElem (o : AOps V) (W : Type) extends ElemSpec True o.toOps W where
  assign_spec : ∀ d s v w, Triple True (cell toElemSpec d v ∗ cell toElemSpec s w) (o.assign d s) (fun _ => cell toElemSpec d w ∗ cell toElemSpec s w)
  self_spec : ∀ l w, Triple True (cell toElemSpec l w) (o.assign l l) (fun _ => cell toElemSpec l w)

variable {o : AOps V}

/-- an object of value `w` at `l`, with all it owns -/
abbrev obj (e : AElem o W) (l : Loc) (w : W) : HProp V := cell e.toElemSpec l w

/-- a comparison callback computes `comp` of the values and changes nothing -/
structure Compares (e : AElem o W) (f : Loc → Loc → M V Bool) (comp : W → W → Bool) : Prop where
  two : ∀ l r a b, Triple True (obj e l a ∗ obj e r b) (f l r) (fun x => ⌜x = comp a b⌝ ∗ obj e l a ∗ obj e r b)
  one : ∀ l a, Triple True (obj e l a) (f l l) (fun x => ⌜x = comp a a⌝ ∗ obj e l a)

/-- a predicate callback computes `pred` of the value and changes nothing -/
def Tests (e : AElem o W) (g : Loc → M V Bool) (pred : W → Bool) : Prop :=
  ∀ l a, Triple True (obj e l a) (g l) (fun x => ⌜x = pred a⌝ ∗ obj e l a)

/-! ## all objects of a plain memory -/

/-- the objects in the list -/
def big (e : AElem o W) : List (Loc × W) → HProp V
  | [] => emp
  | p :: L => obj e p.1 p.2 ∗ big e L

/-- `L` lists the contents of the plain heap `h` -/
structure Lists (L : List (Loc × W)) (h : Heap W) : Prop where
  nodup : (L.map Prod.fst).Nodup
  iff : ∀ l x, h l = some x ↔ ∃ w, x = .obj (some w) ∧ (l, w) ∈ L

/-- For every value of the plain heap `h'` there is an object at the same location. -/
def owned (e : AElem o W) (h' : Heap W) : HProp V := fun h => ∃ L, Lists L h' ∧ big e L h

variable {e : AElem o W} {h' : Heap W} {l d s : Loc} {v w : W}

theorem big_perm {L L' : List (Loc × W)} (h : L.Perm L') : big e L = big e L' := by
  induction h with
  | nil => rfl
  | cons x _ ih => simp only [big, ih]
  | swap x y l => simp only [big]; rw [sep_left_comm]
  | trans _ _ ih1 ih2 => exact ih1.trans ih2

theorem big_append {L L' : List (Loc × W)} : big e (L ++ L') = (big e L ∗ big e L') := by
  induction L with
  | nil => simp [big]
  | cons p L ih => simp only [List.cons_append, big, ih, sep_assoc]

def hdel (h' : Heap W) (l : Loc) : Heap W := fun k => if k = l then none else h' k
def hput (h' : Heap W) (l : Loc) (w : W) : Heap W := fun k => if k = l then some (.obj (some w)) else h' k

theorem mem_unique {L : List (Loc × W)} (hn : (L.map Prod.fst).Nodup) {l : Loc} {v w : W} (h1 : (l, v) ∈ L) (h2 : (l, w) ∈ L) : v = w := by
  induction L with
  | nil => cases h1
  | cons p L ih =>
    simp only [List.map_cons, List.nodup_cons, List.mem_map, not_exists, not_and] at hn
    rcases List.mem_cons.1 h1 with h1 | h1 <;> rcases List.mem_cons.1 h2 with h2 | h2
    · rw [← h1] at h2; exact (congrArg Prod.snd h2).symm
    · exact absurd (by rw [← h1]) (hn.1 _ h2)
    · exact absurd (by rw [← h2]) (hn.1 _ h1)
    · exact ih hn.2 h1 h2

theorem owned_take (h : h' l = some (.obj (some w))) : owned e h' ⊢ₛ obj e l w ∗ owned e (hdel h' l) := by
  rintro k ⟨L, hL, hb⟩
  obtain ⟨w', hw, hm⟩ := (hL.iff _ _).1 h
  cases hw
  obtain ⟨L1, L2, rfl⟩ := List.append_of_mem hm
  rw [big_perm List.perm_middle] at hb
  obtain ⟨k1, k2, hd, hu, h1, h2⟩ := hb
  refine ⟨k1, k2, hd, hu, h1, L1 ++ L2, ⟨?_, fun l1 x => ?_⟩, h2⟩
  · have := hL.nodup
    rw [(List.perm_middle.map Prod.fst).nodup_iff, List.map_cons, List.nodup_cons] at this
    exact this.2
  · have hn := hL.nodup
    rw [(List.perm_middle.map Prod.fst).nodup_iff, List.map_cons, List.nodup_cons] at hn
    unfold hdel
    by_cases hl : l1 = l
    · subst hl
      simp only [↓reduceIte, reduceCtorEq, false_iff, not_exists, not_and]
      intro w1 _ hw1
      exact hn.1 (List.mem_map.2 ⟨_, hw1, rfl⟩)
    · rw [if_neg hl, hL.iff]
      constructor
      · rintro ⟨w1, hx, hw1⟩
        refine ⟨w1, hx, ?_⟩
        simp only [List.mem_append, List.mem_cons, Prod.mk.injEq] at hw1 ⊢
        rcases hw1 with h | h | h
        · exact .inl h
        · exact absurd h.1 hl
        · exact .inr h
      · rintro ⟨w1, hx, hw1⟩
        refine ⟨w1, hx, ?_⟩
        simp only [List.mem_append, List.mem_cons] at hw1 ⊢
        rcases hw1 with h | h
        · exact .inl h
        · exact .inr (.inr h)

theorem owned_put (h : h' l = none) : obj e l w ∗ owned e h' ⊢ₛ owned e (hput h' l w) := by
  rintro k ⟨k1, k2, hd, hu, h1, L, hL, h2⟩
  refine ⟨(l, w) :: L, ⟨?_, fun l1 x => ?_⟩, k1, k2, hd, hu, h1, h2⟩
  · rw [List.map_cons, List.nodup_cons]
    refine ⟨fun hm => ?_, hL.nodup⟩
    obtain ⟨⟨l2, w2⟩, h3, h4⟩ := List.mem_map.1 hm
    cases h4
    have := (hL.iff l (.obj (some w2))).2 ⟨w2, rfl, h3⟩
    rw [h] at this
    cases this
  · unfold hput
    by_cases hl : l1 = l
    · subst hl
      simp only [↓reduceIte, Option.some.injEq, List.mem_cons, Prod.mk.injEq, true_and]
      constructor
      · intro hx; exact ⟨w, hx.symm, .inl rfl⟩
      · rintro ⟨w1, rfl, rfl | hm⟩
        · rfl
        · have := (hL.iff l1 (.obj (some w1))).2 ⟨w1, rfl, hm⟩
          rw [h] at this
          cases this
    · rw [if_neg hl, hL.iff]
      simp only [List.mem_cons, Prod.mk.injEq, hl, false_and, false_or]

theorem owned_obj (h : h' l = some x) {k : Heap V} (hh : owned e h' k) : ∃ w, x = .obj (some w) := by
  obtain ⟨L, hL, _⟩ := hh
  obtain ⟨w, hw, _⟩ := (hL.iff _ _).1 h
  exact ⟨w, hw⟩

/-- a slot accessed and overwritten -/
theorem owned_set (h : h' l = some (.obj (some v))) : obj e l w ∗ owned e (hdel h' l) ⊢ₛ owned e (hput h' l w) := by
  refine ent_trans (owned_put (by simp [hdel])) ?_
  rw [show hput (hdel h' l) l w = hput h' l w from funext fun k => by unfold hput hdel; by_cases hk : k = l <;> simp [hk]]
  exact ent_refl _

theorem owned_back (h : h' l = some (.obj (some w))) : obj e l w ∗ owned e (hdel h' l) ⊢ₛ owned e h' := by
  refine ent_trans (owned_set h) ?_
  rw [show hput h' l w = h' from funext fun k => by unfold hput; by_cases hk : k = l <;> simp [hk, h]]
  exact ent_refl _

/-! ## simulation -/

/-- Whenever the plain program `m'` succeeds, the program `m` on objects succeeds from the corresponding objects and a fragment `F`, ends with the objects that correspond to the final plain
memory and the fragment `G`, and does nothing else to the memory. -/
def Sim (e : AElem o W) (F : HProp V) (m' : M W α) (m : M V β) (G : α → β → HProp V) : Prop :=
  ∀ s' a' t', m' s' = some (.ok (a', t')) → Triple True (owned e s'.cells ∗ F) m (fun a => owned e t'.cells ∗ G a' a)

/-- the same with equal results, keeping `F` -/
abbrev SimE (e : AElem o W) (F : HProp V) (m' : M W α) (m : M V α) : Prop := Sim e F m' m (fun a' a => ⌜a = a'⌝ ∗ F)

variable {F F' R : HProp V} {G : α → β → HProp V} {H : γ → δ → HProp V} {m' : M W α} {m : M V β}

theorem ok_bind {m : M V α} {k : α → M V β} {s t : Mem V} {b : β} (h : (m >>= k) s = some (.ok (b, t))) : ∃ a s1, m s = some (.ok (a, s1)) ∧ k a s1 = some (.ok (b, t)) := by
  rcases hm : m s with _ | (_ | ⟨a, s1⟩)
  · simp [Bind.bind, StateT.bind, ExceptT.bind, ExceptT.mk, Option.bind, ExceptT.bindCont, hm] at h
  · rw [bind_error hm] at h; cases h
  · rw [bind_ok hm] at h; exact ⟨a, s1, rfl, h⟩

theorem Sim.bind {k' : α → M W γ} {k : β → M V δ} (h : Sim e F m' m G) (hk : ∀ a' a, Sim e (G a' a) (k' a') (k a) H) : Sim e F (m' >>= k') (m >>= k) H := by
  intro s' b' t' hr
  obtain ⟨a', s1, h1, h2⟩ := ok_bind hr
  exact Triple.bind (h s' a' s1 h1) fun a => hk a' a s1 b' t' h2

theorem SimE.bind {m' : M W α} {m : M V α} {k' : α → M W γ} {k : α → M V δ} (h : SimE e F m' m) (hk : ∀ a, Sim e F (k' a) (k a) H) : Sim e F (m' >>= k') (m >>= k) H := by
  refine Sim.bind h fun a' a => ?_
  intro s' b' t' hr
  refine Triple.pre (P' := ⌜a = a'⌝ ∗ (owned e s'.cells ∗ F)) (by cancel) ?_
  apply Triple.pure_left
  rintro rfl
  exact hk a s' b' t' hr

theorem SimE.pure {a : α} : SimE e F (Pure.pure a : M W α) (Pure.pure a) := by
  intro s' a' t' hr
  cases hr
  apply Triple.ret
  cancel

theorem Sim.ret {a' : α} {a : β} (h : F ⊢ₛ G a' a) : Sim e F (Pure.pure a' : M W α) (Pure.pure a) G := by
  intro s' a' t' hr
  cases hr
  apply Triple.ret
  exact sep_mono (ent_refl _) h

theorem Sim.ub : Sim e F (CC.ub : M W α) m G := by
  intro s' a' t' hr
  cases hr

theorem Sim.ite {p : Prop} [Decidable p] {a' b' : M W α} {a b : M V β} (h1 : p → Sim e F a' a G) (h2 : ¬ p → Sim e F b' b G) : Sim e F (if p then a' else b') (if p then a else b) G := by
  by_cases h : p
  · simp only [h, ↓reduceIte]; exact h1 h
  · simp only [h, ↓reduceIte]; exact h2 h

theorem Sim.post {G' : α → β → HProp V} (h : Sim e F m' m G') (hg : ∀ a' a, G' a' a ⊢ₛ G a' a) : Sim e F m' m G := by
  intro s' a' t' hr
  exact Triple.post (h s' a' t' hr) fun a => sep_mono (ent_refl _) (hg a' a)

theorem Sim.pre (hf : F ⊢ₛ F') (h : Sim e F' m' m G) : Sim e F m' m G := by
  intro s' a' t' hr
  exact Triple.pre (sep_mono (ent_refl _) hf) (h s' a' t' hr)

/-- a fragment that is not used -/
theorem Sim.frame (h : Sim e F m' m G) : Sim e (F ∗ R) m' m (fun a' a => G a' a ∗ R) := by
  intro s' a' t' hr
  refine Triple.pre (P' := (owned e s'.cells ∗ F) ∗ R) (by cancel) ?_
  refine Triple.post (Triple.frame (h s' a' t' hr)) fun a => ?_
  cancel

/-- statements of the program on objects that the plain program does not have -/
theorem Sim.right {m0 : M V γ} {k : γ → M V β} {P : HProp V} {Q : γ → HProp V} (h0 : Triple True P m0 Q) (hf : F ⊢ₛ P ∗ R) (hk : ∀ c, Sim e (Q c ∗ R) m' (k c) G) : Sim e F m' (m0 >>= k) G := by
  intro s' a' t' hr
  refine Triple.pre (P' := P ∗ (R ∗ owned e s'.cells)) (ent_trans (sep_mono (ent_refl _) hf) (by cancel)) ?_
  refine Triple.bind (Triple.frame h0) fun c => ?_
  refine Triple.pre ?_ (hk c s' a' t' hr)
  cancel

/-- `Sim` can be proved by fixpoint induction -/
theorem Sim.adm : Lean.Order.admissible (fun m' : M W α => Sim e F m' m G) := by
  unfold Sim
  apply Lean.Order.admissible_pi; intro s'
  apply Lean.Order.admissible_pi; intro a'
  apply Lean.Order.admissible_pi; intro t'
  refine Lean.Order.admissible_apply (β := fun _ => Option (Except Fault (α × Mem W))) (fun _ f => f = some (.ok (a', t')) → _) s' (Lean.Order.admissible_flatOrder _ ?_)
  intro h
  cases h

end CC.Own
