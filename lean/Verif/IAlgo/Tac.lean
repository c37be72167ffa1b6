import Verif.IAlgo.Spec
/-!
# Symbolic execution of programs on iterator objects

Only proof-producing macros.  `at_it`: an iterator object is in the memory.  `istep`: the first statement of the program is an operation on iterators whose positions are known.
-/
namespace CC.IAlgo
open CC CC.Tac CC.Iter CC.Algo
variable {V α β γ : Type} {Z : Nat → Nat} {S A P F R : HProp V} {r r2 : Src V} {Q : β → HProp V} {x y i j : Nat}

theorem ne_at' (h1 : At P r x i) (h2 : At P r y j) (hr : r.Ok True Z S) (hS : P ⊢ₛ S ∗ R) (hi : i ≤ r.len) (hj : j ≤ r.len) {K : Bool → M V β}
    (hk : Triple True P (K (decide (i ≠ j))) Q) : Triple True P (cNe x y >>= K) Q := ne_at hr hS hi hj h1 h2 hk
theorem eq_at' (h1 : At P r x i) (h2 : At P r y j) (hr : r.Ok True Z S) (hS : P ⊢ₛ S ∗ R) (hi : i ≤ r.len) (hj : j ≤ r.len) {K : Bool → M V β}
    (hk : Triple True P (K (decide (i = j))) Q) : Triple True P (cEq x y >>= K) Q := eq_at hr hS hi hj h1 h2 hk
theorem deref_at' (h1 : At P r x i) (hr : r.Ok True Z S) (hS : P ⊢ₛ S ∗ R) (hi : i < r.len) {K : Loc → M V β}
    (hk : Triple True (S ∗ R) (K (r.ref i)) Q) : Triple True P (cDeref x >>= K) Q := deref_at hr hS hi h1 hk
theorem dist_at' (h1 : At P r x i) (h2 : At P r y j) (hr : r.Ok True Z S) (hS : P ⊢ₛ S ∗ R) (hij : i ≤ j) (hj : j ≤ r.len) {K : Int → M V β}
    (hk : Triple True (S ∗ R) (K ((j : Int) - i)) Q) : Triple True P (cDistance Z x y >>= K) Q := dist_at hr hS hij hj h1 h2 hk
theorem less_at' (h1 : At P r x i) (h2 : At P r y j) (hr : r.Ok True Z S) (hS : P ⊢ₛ S ∗ R) (hk : r.kind.random) (hi : i ≤ r.len) (hj : j ≤ r.len) {K : Bool → M V β}
    (hk : Triple True (S ∗ R) (K (decide (i < j))) Q) : Triple True P (cLess x y >>= K) Q := less_at hr hS ‹_› hi hj h1 h2 hk
theorem inc_at' (h1 : P ⊢ₛ It r x i ∗ A) (hr : r.Ok True Z S) (he : A ⊢ₛ S ∗ R) (hi : i < r.len) {K : Nat → M V β}
    (hk : Triple True (It r x (i + 1) ∗ S ∗ R) (K x) Q) : Triple True P (cInc x >>= K) Q := inc_at hr (ent_trans h1 (sep_mono (ent_refl _) he)) hi hk
theorem dec_at' (h1 : P ⊢ₛ It r x i ∗ A) (hr : r.Ok True Z S) (he : A ⊢ₛ S ∗ R) (hb : r.kind.bidir) (h0 : 0 < i) (hi : i ≤ r.len) {K : Nat → M V β}
    (hk : Triple True (It r x (i - 1) ∗ S ∗ R) (K x) Q) : Triple True P (cDec x >>= K) Q := dec_at hr (ent_trans h1 (sep_mono (ent_refl _) he)) hb h0 hi hk
theorem test_at' {c : Heap V} {Ψ : α → Heap V → Prop} {pred : V → Bool} {K' : Bool → M V α} (h1 : At P r x i) (hr : r.Ok True Z S) (hw : Wp (test pred (r.ref i) >>= K') c Ψ) (hS : P ⊢ₛ S ∗ Ex c ∗ R)
    (hi : i < r.len) {K : Bool → M V β} (hk : ∀ b c1, Wp (K' b) c1 Ψ → Triple True (S ∗ Ex c1 ∗ R) (K b) Q) : Triple True P (testAt pred x >>= K) Q := testAt_at hr hi hw hS h1 hk
theorem cmpV_at' {c : Heap V} {Ψ : α → Heap V → Prop} {comp : V → V → Bool} {v : Loc} {K' : Bool → M V α} (h1 : At P r x i) (hr : r.Ok True Z S) (hw : Wp (cmp comp (r.ref i) v >>= K') c Ψ)
    (hS : P ⊢ₛ S ∗ Ex c ∗ R) (hi : i < r.len) {K : Bool → M V β} (hk : ∀ b c1, Wp (K' b) c1 Ψ → Triple True (S ∗ Ex c1 ∗ R) (K b) Q) : Triple True P (cmpV comp x v >>= K) Q :=
  cmpV_at hr hi hw hS h1 hk
theorem vCmp_at' {c : Heap V} {Ψ : α → Heap V → Prop} {comp : V → V → Bool} {v : Loc} {K' : Bool → M V α} (h1 : At P r x i) (hr : r.Ok True Z S) (hw : Wp (cmp comp v (r.ref i) >>= K') c Ψ)
    (hS : P ⊢ₛ S ∗ Ex c ∗ R) (hi : i < r.len) {K : Bool → M V β} (hk : ∀ b c1, Wp (K' b) c1 Ψ → Triple True (S ∗ Ex c1 ∗ R) (K b) Q) : Triple True P (vCmp comp v x >>= K) Q :=
  vCmp_at hr hi hw hS h1 hk
theorem equalV_at' {c : Heap V} {Ψ : α → Heap V → Prop} {E : Nat → V → V → Bool} {v : Loc} {K' : Bool → M V α} (h1 : At P r x i) (hr : r.Ok True Z S) (hw : Wp (cmp (E r.ty) (r.ref i) v >>= K') c Ψ)
    (hS : P ⊢ₛ S ∗ Ex c ∗ R) (hi : i < r.len) {K : Bool → M V β} (hk : ∀ b c1, Wp (K' b) c1 Ψ → Triple True (S ∗ Ex c1 ∗ R) (K b) Q) : Triple True P (equalV E x v >>= K) Q :=
  equalV_at hr hi hw hS h1 hk
theorem cmpAt_at' {c : Heap V} {Ψ : α → Heap V → Prop} {comp : V → V → Bool} {K' : Bool → M V α} (h1 : At P r x i) (h2 : At P r2 y j) (hr : r.Ok True Z S) (hr2 : r2.Ok True Z S)
    (hw : Wp (cmp comp (r.ref i) (r2.ref j) >>= K') c Ψ) (hS : P ⊢ₛ S ∗ Ex c ∗ R) (hb : S ∗ Ex c ∗ R ⊢ₛ P) (hi : i < r.len) (hj : j < r2.len)
    {K : Bool → M V β} (hk : ∀ b c1, Wp (K' b) c1 Ψ → Triple True (S ∗ Ex c1 ∗ R) (K b) Q) : Triple True P (cmpAt comp x y >>= K) Q :=
  cmpAt_at hr hr2 hi hj hw hS h1 (h2.mono (R := emp) (by rw [sep_emp]; exact hb)) hk
theorem assignAt_at' {c : Heap V} {Ψ : α → Heap V → Prop} {K' : Unit → M V α} (h1 : At P r x i) (h2 : At P r2 y j) (hr : r.Ok True Z S) (hr2 : r2.Ok True Z S)
    (hw : Wp (asg (r.ref i) (r2.ref j) >>= K') c Ψ) (hS : P ⊢ₛ S ∗ Ex c ∗ R) (hb : S ∗ Ex c ∗ R ⊢ₛ P) (hi : i < r.len) (hj : j < r2.len)
    {K : Unit → M V β} (hk : ∀ c1, Wp (K' ()) c1 Ψ → Triple True (S ∗ Ex c1 ∗ R) (K ()) Q) : Triple True P (assignAt x y >>= K) Q :=
  assignAt_at hr hr2 hi hj hw hS h1 (h2.mono (R := emp) (by rw [sep_emp]; exact hb)) hk
theorem assignV_at' {c : Heap V} {Ψ : α → Heap V → Prop} {v : Loc} {K' : Unit → M V α} (h1 : At P r x i) (hr : r.Ok True Z S) (hw : Wp (asg (r.ref i) v >>= K') c Ψ)
    (hS : P ⊢ₛ S ∗ Ex c ∗ R) (hi : i < r.len) {K : Unit → M V β} (hk : ∀ c1, Wp (K' ()) c1 Ψ → Triple True (S ∗ Ex c1 ∗ R) (K ()) Q) : Triple True P (assignV x v >>= K) Q :=
  assignV_at hr hi hw hS h1 hk

theorem adv_at {k : Nat} {n : Int} (h1 : P ⊢ₛ It r x i ∗ A) (hr : r.Ok True Z S) (he : A ⊢ₛ S ∗ R) (hkn : (k : Int) = i + n) (hk' : k ≤ r.len) (hi : i ≤ r.len) (h2 : 0 ≤ n ∨ r.kind.bidir)
    {K : Unit → M V β} (hk : Triple True (It r x k ∗ S ∗ R) (K ()) Q) : Triple True P (cAdvance x n >>= K) Q := by
  refine advance_at hr (ent_trans h1 (sep_mono (ent_refl _) he)) hi (by omega) (by omega) h2 ?_
  rw [← hkn, Int.toNat_natCast]
  exact hk
theorem copyMove_at {k : Nat} {n : Int} (h1 : At P r x i) (hr : r.Ok True Z S) (hS : P ⊢ₛ S ∗ R) (hkn : (k : Int) = i + n) (hk' : k ≤ r.len) (hi : i ≤ r.len) (h2 : 0 ≤ n ∨ r.kind.bidir)
    {K : Nat → M V β} (hk : ∀ q, q ≠ 0 → Triple True (It r q k ∗ S ∗ R) (K q) Q) : Triple True P (copyMove 0 x n >>= K) Q := by
  unfold copyMove
  simp only [bind_assoc, pure_bind]
  refine set_loc0 h1 fun q hq => ?_
  exact adv_at (ent_refl _) hr hS hkn hk' hi h2 (hk q hq)

macro "at_it" : tactic => `(tactic| first | exact ⟨_, by cancel⟩ | exact At.mono (by assumption) (by cancel))

open Lean Meta Elab Tactic in
/-- one statement on iterators; conditions on positions by `omega` -/
elab "istep" : tactic => do
  let g ← getMainGoal
  let (_, _, _, _, m, _) ← g.withContext (tripleArgs g)
  let m ← g.withContext (headNorm m)
  let x ← match m.getAppFnArgs with
    | (``Bind.bind, #[_, _, _, _, x, _]) => pure x
    | _ => throwError "istep: not a sequence"
  match x.getAppFn.constName? with
  | some ``cNe => evalTactic (← `(tactic| refine ne_at' (by at_it) (by at_it) (by assumption) (by cancel) (by omega) (by omega) ?_))
  | some ``cEq => evalTactic (← `(tactic| refine eq_at' (by at_it) (by at_it) (by assumption) (by cancel) (by omega) (by omega) ?_))
  | some ``cInc => evalTactic (← `(tactic| refine inc_at' (by cancel) (by assumption) (by cancel) (by omega) ?_))
  | some ``cDec => evalTactic (← `(tactic| refine dec_at' (by cancel) (by assumption) (by cancel) (by assumption) (by omega) (by omega) ?_))
  | some ``cDeref => evalTactic (← `(tactic| refine deref_at' (by at_it) (by assumption) (by cancel) (by omega) ?_))
  | some ``newCopy => evalTactic (← `(tactic| refine newCopy_at (by at_it) ?_))
  | some ``free => evalTactic (← `(tactic| refine free_at (by cancel) ?_))
  | some ``cAssign => evalTactic (← `(tactic| refine assign_at (by cancel) (by at_it) ?_))
  | some ``atLeast => evalTactic (← `(tactic| refine atLeast_at (by at_it) (by omega) ?_))
  | some ``exactly => evalTactic (← `(tactic| refine exactly_at (by at_it) (by omega) ?_))
  | some ``isMutable => evalTactic (← `(tactic| refine mutable_at (by at_it) (by assumption) ?_))
  | some ``typeOf => evalTactic (← `(tactic| refine type_at (by at_it) ?_))
  | some ``cDistance => evalTactic (← `(tactic| refine dist_at' (by at_it) (by at_it) (by assumption) (by cancel) (by omega) (by omega) ?_))
  | some ``cLess => evalTactic (← `(tactic| refine less_at' (by at_it) (by at_it) (by assumption) (by cancel) (by assumption) (by omega) (by omega) ?_))
  | some ``testAt => evalTactic (← `(tactic| refine test_at' (by at_it) (by assumption) (by assumption) (by cancel) (by omega) ?_))
  | some ``cmpV => evalTactic (← `(tactic| refine cmpV_at' (by at_it) (by assumption) (by assumption) (by cancel) (by omega) ?_))
  | some ``vCmp => evalTactic (← `(tactic| refine vCmp_at' (by at_it) (by assumption) (by assumption) (by cancel) (by omega) ?_))
  | some ``equalV => evalTactic (← `(tactic| refine equalV_at' (by at_it) (by assumption) (by assumption) (by cancel) (by omega) ?_))
  | some ``cmpAt => evalTactic (← `(tactic| refine cmpAt_at' (by at_it) (by at_it) (by assumption) (by assumption) (by assumption) (by cancel) (by cancel) (by omega) (by omega) ?_))
  | some ``assignAt => evalTactic (← `(tactic| refine assignAt_at' (by at_it) (by at_it) (by assumption) (by assumption) (by assumption) (by cancel) (by cancel) (by omega) (by omega) ?_))
  | some ``assignV => evalTactic (← `(tactic| refine assignV_at' (by at_it) (by assumption) (by assumption) (by cancel) (by omega) ?_))
  | some ``swapAt => evalTactic (← `(tactic| refine swapAt_at (by at_it) (by at_it) (by assumption) (by assumption) (by assumption) (by assumption) (by assumption) (by cancel) (by cancel) (by omega) (by omega) ?_))
  | some ``iterSwap => evalTactic (← `(tactic| refine iterSwap_at (by at_it) (by at_it) (by assumption) (by assumption) (by assumption) (by assumption) (by assumption) (by cancel) (by cancel) (by omega) (by omega) (by assumption) (by assumption) (by first | rfl | assumption) ?_))
  | _ => throwError "istep: no rule for {x}"

/-- statements on iterators up to the first one that is not -/
macro "isteps" : tactic => `(tactic| repeat (istep; try (intro (q : Nat) (hq : q ≠ 0))))

/-- an iterator argument is not NULL -/
macro "inz " x:term:max h:ident : tactic => `(tactic| refine At.with (x := $x) (by at_it) fun $h _ => ?_)

end CC.IAlgo
