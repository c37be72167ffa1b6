import Verif.IAlgo.NonModRef
import Verif.IAlgo.Sources
/-!
# What a caller of an algorithm passes

Ranges are given by two iterator objects, results by variables that hold (the address of) an iterator object.
-/
namespace CC.IAlgo
open CC CC.Tac CC.Iter CC.Algo
variable {V α β γ : Type} {Z : Nat → Nat} {S A A1 A2 G G1 G2 P P' F R : HProp V} {r r2 : Src V} {B B1 B2 : Nat → HProp V} {x y i j n : Nat} {o o2 : Out}

/-- In the caller's memory `G` there are iterator objects `first` and `last`, of one container `r` (with the structure `S`), `first` at position `i` and `last` `n` positions further: they delimit the
range of the `n` elements in the positions `i`, …, `i + n - 1`. -/
structure Spans (Z : Nat → Nat) (S G : HProp V) (r : Src V) (first last i n : Nat) : Prop where
  ok : r.Ok True Z S
  le : i + n ≤ r.len
  fst : At G r first i
  lst : At G r last (i + n)

/-- In the caller's memory `G` there is an iterator object `x` at position `i` of `r`, with room for `n` elements. -/
structure Stands (Z : Nat → Nat) (S G : HProp V) (r : Src V) (x i n : Nat) : Prop where
  ok : r.Ok True Z S
  le : i + n ≤ r.len
  at_ : At G r x i

/-- The argument `o` is the address of a variable for a result at a position of `r`: NULL (the result is not wanted), the address of a variable that holds NULL (it will hold the address of a new
iterator object), or the address of a variable that holds (the address of) an iterator object of the same container (which will be moved, here one at position `k`).  `G` is the memory of the caller's iterators, `A` that
memory and the variable, `B i` the same with a result at position `i`. -/
inductive OutArg (r : Src V) : Out → HProp V → HProp V → (Nat → HProp V) → Prop
  | null {k : Nat} {G : HProp V} : OutArg r (.var (0, k)) G G (fun _ => G)
  | fresh {l : Loc} {G : HProp V} : OutArg r (.var l) G (pts l (.num 0) ∗ G) (fun i => ∃ₛ q, ⌜q ≠ 0⌝ ∗ pts l (.num q) ∗ It r q i ∗ G)
  | old {l : Loc} {q k : Nat} {G : HProp V} : OutArg r (.var l) (It r q k ∗ G) (pts l (.num q) ∗ It r q k ∗ G) (fun i => pts l (.num q) ∗ It r q i ∗ G)

/-- The result is wanted. -/
inductive OutVar (r : Src V) : Out → HProp V → HProp V → (Nat → HProp V) → Prop
  | fresh {l : Loc} {G : HProp V} : l.1 ≠ 0 → OutVar r (.var l) G (pts l (.num 0) ∗ G) (fun i => ∃ₛ q, ⌜q ≠ 0⌝ ∗ pts l (.num q) ∗ It r q i ∗ G)
  | old {l : Loc} {q k : Nat} {G : HProp V} : l.1 ≠ 0 → OutVar r (.var l) (It r q k ∗ G) (pts l (.num q) ∗ It r q k ∗ G) (fun i => pts l (.num q) ∗ It r q i ∗ G)

theorem OutVar.arg (h : OutVar r o G A B) : OutArg r o G A B := by
  cases h with
  | fresh _ => exact .fresh
  | old _ => exact .old

theorem OutVar.wanted (h : OutVar r o G A B) : o.isNull = false := by
  cases h with
  | fresh h => simpa [Out.isNull] using h
  | old h => simpa [Out.isNull] using h

theorem OutArg.ok (h : OutArg r o G A B) : OutOk r o A (fun i _ => B i) := by
  cases h with
  | null => exact OutOk.null
  | fresh => exact OutOk.fresh
  | old => exact OutOk.old

theorem OutArg.ext (h : OutArg r o G A B) : ∃ R, A = (R ∗ G) := by
  cases h with
  | null => exact ⟨emp, (emp_sep _).symm⟩
  | fresh => exact ⟨_, rfl⟩
  | old => exact ⟨_, rfl⟩

theorem OutArg.mono (h : OutArg r o G A B) (ha : At G r2 x i) : At A r2 x i := by
  obtain ⟨R, rfl⟩ := h.ext
  exact ha.mono (R := R) (by cancel)

theorem OutArg.mono2 (h : OutArg r o G1 A1 B1) {r' : Src V} (h2 : OutArg r' o2 G2 A2 B2) (ha : At (G1 ∗ G2) r2 x i) : At (A1 ∗ A2) r2 x i := by
  obtain ⟨R, rfl⟩ := h.ext
  obtain ⟨R2, rfl⟩ := h2.ext
  exact ha.mono (R := R ∗ R2) (by cancel)

theorem OutArg.in (h : OutArg r o G A B) (ha : At G r x i) : OutIn r o A (fun i _ => B i) x i := by
  cases h with
  | null => exact OutIn.null (r := r) (i := i)
  | fresh => exact OutIn.fresh ha
  | old =>
    refine OutIn.old ?_
    exact ha.mono (R := _) (by cancel)

/-- two results -/
theorem OutArg.ok2 (h : OutArg r o G1 A1 B1) : OutOk r o (A1 ∗ A2) (fun i _ => B1 i ∗ A2) := h.ok.frame
theorem OutArg.okR (h : OutArg r o G2 A2 B2) : OutOk r o (A1 ∗ A2) (fun i _ => A1 ∗ B2 i) := by
  have := h.ok.frame (G := A1)
  rw [sep_comm A1 A2]
  simpa only [sep_comm A1] using this

theorem lift_fact {m : M V α} {m' : M V α} {p : α → Prop} (h : RefC (A ∗ S) m m' (fun a' a => a = a') (fun _ _ => A ∗ S)) (ht : Triple True P m' (fun a => ⌜p a⌝ ∗ P')) :
    Triple True (P ∗ A ∗ S) m (fun a => ⌜p a⌝ ∗ P' ∗ A ∗ S) := by
  refine Triple.post (h.lift ht) fun a => ?_
  refine ent_ex_left fun a' => ent_pure_left fun e => ?_
  subst e
  cancel

theorem lift_found {m : M V (α × Nat)} {m' : M V (α × Nat)} {p : α × Nat → Prop} {φ : α × Nat → α × Nat → Prop} (h : RefC (A ∗ S) m m' φ (fun a' _ => B a'.2 ∗ S)) (hφ : ∀ a' a, φ a' a → a.1 = a'.1)
    (ht : Triple True P m' (fun a => ⌜p a⌝ ∗ P')) : Triple True (P ∗ A ∗ S) m (fun a => ∃ₛ k, ⌜p (a.1, k)⌝ ∗ P' ∗ B k ∗ S) := by
  refine Triple.post (h.lift ht) fun a => ?_
  refine ent_ex_left fun a' => ent_pure_left fun e => ?_
  rw [sep_assoc]
  refine ent_pure_left fun hp => ?_
  refine ent_ex_right a'.2 (ent_pure_right ?_ (ent_refl _))
  rw [hφ _ _ e]
  exact hp

theorem lift_pos {m m' : M V Nat} {p : Nat → Prop} {φ : Nat → Nat → Prop} (h : RefC (A ∗ S) m m' φ (fun a' _ => B a' ∗ S))
    (ht : Triple True P m' (fun a => ⌜p a⌝ ∗ P')) : Triple True (P ∗ A ∗ S) m (fun _ => ∃ₛ k, ⌜p k⌝ ∗ P' ∗ B k ∗ S) := by
  refine Triple.post (h.lift ht) fun a => ?_
  refine ent_ex_left fun a' => ent_pure_left fun e => ?_
  rw [sep_assoc]
  exact ent_pure_left fun hp => ent_ex_right a' (ent_pure_right hp (ent_refl _))

theorem lift_exact {m m' : M V (α × Nat)} {n : α} {e : Nat} {φ : α × Nat → α × Nat → Prop} (h : RefC (A ∗ S) m m' φ (fun a' _ => B a'.2 ∗ S)) (hφ : ∀ a' a, φ a' a → a.1 = a'.1)
    (ht : Triple True P m' (fun a => ⌜a = (n, e)⌝ ∗ P')) : Triple True (P ∗ A ∗ S) m (fun a => ⌜a.1 = n⌝ ∗ P' ∗ B e ∗ S) := by
  refine Triple.post (h.lift ht) fun a => ?_
  refine ent_ex_left fun a' => ent_pure_left fun hf => ?_
  rw [sep_assoc]
  refine ent_pure_left fun hp => ?_
  subst hp
  exact ent_pure_right (hφ _ _ hf) (ent_refl _)

theorem lift_at {m m' : M V Nat} {e : Nat} {φ : Nat → Nat → Prop} (h : RefC (A ∗ S) m m' φ (fun a' _ => B a' ∗ S))
    (ht : Triple True P m' (fun a => ⌜a = e⌝ ∗ P')) : Triple True (P ∗ A ∗ S) m (fun _ => P' ∗ B e ∗ S) := by
  refine Triple.post (h.lift ht) fun a => ?_
  refine ent_ex_left fun a' => ent_pure_left fun hf => ?_
  rw [sep_assoc]
  refine ent_pure_left fun hp => ?_
  subst hp
  exact ent_refl _

theorem lift_two {m m' : M V (Nat × Nat)} {p : Nat × Nat → Prop} {φ : Nat × Nat → Nat × Nat → Prop} (h : RefC ((A1 ∗ A2) ∗ S) m m' φ (fun a' _ => (B1 a'.1 ∗ B2 a'.2) ∗ S))
    (ht : Triple True P m' (fun a => ⌜p a⌝ ∗ P')) : Triple True (P ∗ A1 ∗ A2 ∗ S) m (fun _ => ∃ₛ k l, ⌜p (k, l)⌝ ∗ P' ∗ B1 k ∗ B2 l ∗ S) := by
  have := h.lift ht
  rw [sep_assoc] at this
  refine Triple.post this fun a => ?_
  refine ent_ex_left fun a' => ent_pure_left fun e => ?_
  rw [sep_assoc, sep_assoc]
  exact ent_pure_left fun hp => ent_ex_right a'.1 (ent_ex_right a'.2 (ent_pure_right hp (ent_refl _)))

theorem lift_found2 {m m' : M V (α × Nat × Nat)} {p : α × Nat × Nat → Prop} {φ : α × Nat × Nat → α × Nat × Nat → Prop}
    (h : RefC ((A1 ∗ A2) ∗ S) m m' φ (fun a' _ => (B1 a'.2.1 ∗ B2 a'.2.2) ∗ S)) (hφ : ∀ a' a, φ a' a → a.1 = a'.1)
    (ht : Triple True P m' (fun a => ⌜p a⌝ ∗ P')) : Triple True (P ∗ A1 ∗ A2 ∗ S) m (fun a => ∃ₛ k l, ⌜p (a.1, k, l)⌝ ∗ P' ∗ B1 k ∗ B2 l ∗ S) := by
  have := h.lift ht
  rw [sep_assoc] at this
  refine Triple.post this fun a => ?_
  refine ent_ex_left fun a' => ent_pure_left fun e => ?_
  rw [sep_assoc, sep_assoc]
  refine ent_pure_left fun hp => ent_ex_right a'.2.1 (ent_ex_right a'.2.2 (ent_pure_right ?_ (ent_refl _)))
  rw [hφ _ _ e]
  exact hp

theorem lift_exact2 {m m' : M V (α × Nat × Nat)} {n : α} {e1 e2 : Nat} {φ : α × Nat × Nat → α × Nat × Nat → Prop}
    (h : RefC ((A1 ∗ A2) ∗ S) m m' φ (fun a' _ => (B1 a'.2.1 ∗ B2 a'.2.2) ∗ S)) (hφ : ∀ a' a, φ a' a → a.1 = a'.1)
    (ht : Triple True P m' (fun a => ⌜a = (n, e1, e2)⌝ ∗ P')) : Triple True (P ∗ A1 ∗ A2 ∗ S) m (fun a => ⌜a.1 = n⌝ ∗ P' ∗ B1 e1 ∗ B2 e2 ∗ S) := by
  have := h.lift ht
  rw [sep_assoc] at this
  refine Triple.post this fun a => ?_
  refine ent_ex_left fun a' => ent_pure_left fun hf => ?_
  rw [sep_assoc, sep_assoc]
  refine ent_pure_left fun hp => ?_
  subst hp
  exact ent_pure_right (hφ _ _ hf) (ent_refl _)

/-! ### destinations: the slots beyond the end of a container are never used -/

/-- entailment for fragments of a memory, in which nothing is at NULL -/
def NEnt (P P' : HProp V) : Prop := ∀ h : Heap V, (∀ k, h (0, k) = none) → P h → P' h

theorem NEnt.sep {Q Q' : HProp V} (h1 : NEnt P P') (h2 : NEnt Q Q') : NEnt (P ∗ Q) (P' ∗ Q') := by
  rintro h hn ⟨a, b, hd, he, hp, hq⟩
  refine ⟨a, b, hd, he, h1 a (fun k => ?_) hp, h2 b (fun k => ?_) hq⟩
  all_goals
    have := hn k
    rw [he] at this
    simp only [Heap.union, Option.or_eq_none_iff] at this
  · exact this.1
  · exact this.2

theorem NEnt.of (h : P ⊢ₛ P') : NEnt P P' := fun s _ hs => h s hs
theorem NEnt.trans {Q : HProp V} (h1 : NEnt P P') (h2 : NEnt P' Q) : NEnt P Q := fun s hn hs => h2 s hn (h1 s hn hs)

theorem NEnt.post {m : M V α} {Q Q' : α → HProp V} {nf : Prop} (h : Triple nf P m Q) (hq : ∀ a, NEnt (Q a) (Q' a)) : Triple nf P m Q' := by
  intro s F hnf hs
  obtain ⟨a, s', e, ho, hq'⟩ := h s F hnf hs
  exact ⟨a, s', e, ho, (hq a).sep (.of (ent_refl F)) _ s'.hnul hq'⟩

theorem NEnt.slots {vs : List V} : NEnt (seg r.slots i vs) (seg r.ref i vs) := by
  induction vs generalizing i with
  | nil => exact .of (ent_refl _)
  | cons v vs ih =>
    refine NEnt.sep ?_ ih
    unfold Src.slots
    split
    · exact .of (ent_refl _)
    · intro h hn hp
      have : h (0, 0) = some (.obj (some v)) := by
        unfold pts at hp
        simp [hp]
      rw [hn] at this
      cases this

/-! ## A container as the memory of its structure and the range of its elements -/

/-- The container `C vs` (with elements `vs`, as many as before) consists of the slots of its elements, which hold `vs`, and of the memory `S` of its structure; the iterators of `r` are positions in it. -/
structure View (Z : Nat → Nat) (C : List V → HProp V) (r : Src V) (S : HProp V) : Prop where
  eq : ∀ vs, vs.length = r.len → C vs = (seg r.ref 0 vs ∗ S)
  ok : r.Ok True Z S
  real : r.Real S

theorem Stands.mono (h : Stands Z S G r x i n) (ha : At A r x i) : Stands Z S A r x i n := ⟨h.ok, h.le, ha⟩

end CC.IAlgo
