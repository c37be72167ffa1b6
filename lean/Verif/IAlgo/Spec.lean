import Verif.IAlgo.Base
import Verif.IAlgo.Refine
import Verif.Algo.Modify
import Verif.Iter.World
/-!
# The operations on iterator objects, in the middle of a program
-/
namespace CC.IAlgo
open CC CC.Tac CC.Iter CC.Algo
variable {V α β γ : Type} {Z : Nat → Nat} {S A P F R : HProp V} {r r2 : Src V} {Q : β → HProp V} {x y i j : Nat}

/-- an iterator object at `x` at position `i` of `r` -/
abbrev It (r : Src V) (x i : Nat) : HProp V := isIt r.kind r.ty x (r.pay i)

/-- the memory `P` contains an iterator object at `x` at position `i` of `r` -/
def At (P : HProp V) (r : Src V) (x i : Nat) : Prop := ∃ R, P ⊢ₛ It r x i ∗ R

theorem At.mono (h : At A r x i) (he : P ⊢ₛ A ∗ R) : At P r x i := by
  obtain ⟨R', h⟩ := h
  exact ⟨R' ∗ R, ent_trans he (ent_trans (sep_mono h (ent_refl _)) (by cancel))⟩

theorem At.with (h : At P r x i) {m : M V β} (hk : x ≠ 0 → ItAt P r.kind r.ty x (r.pay i) → Triple True P m Q) : Triple True P m Q := by
  obtain ⟨R, he⟩ := h
  refine Triple.fact (p := x ≠ 0) (fun h hh => isIt_ne (he h hh)) fun hx => ?_
  exact hk hx (.of_ent hx he)

/-- equality of iterators is equality of positions -/
theorem eq_dec (hr : r.Ok True Z S) (hS : P ⊢ₛ S ∗ R) (hi : i ≤ r.len) (hj : j ≤ r.len) {m : M V β} (hk : decide (r.kind = r.kind ∧ r.pay i = r.pay j) = decide (i = j) → Triple True P m Q) : Triple True P m Q := by
  refine Triple.fact (p := r.pay i = r.pay j → i = j) (fun h hh => hr.inj h R (hS h hh) i j hi hj) fun hx => ?_
  apply hk
  by_cases h : i = j
  · subst h; simp
  · have : r.pay i ≠ r.pay j := fun e => h (hx e)
    simp [h, this]

theorem ne_at (hr : r.Ok True Z S) (hS : P ⊢ₛ S ∗ R) (hi : i ≤ r.len) (hj : j ≤ r.len) (h1 : At P r x i) (h2 : At P r y j) {K : Bool → M V β}
    (hk : Triple True P (K (decide (i ≠ j))) Q) : Triple True P (cNe x y >>= K) Q := by
  refine h1.with fun _ h1 => h2.with fun _ h2 => eq_dec hr hS hi hj fun he => ?_
  refine cNe_reads h1 h2 ?_
  rw [decide_not, he, ← decide_not]
  exact hk

theorem eq_at (hr : r.Ok True Z S) (hS : P ⊢ₛ S ∗ R) (hi : i ≤ r.len) (hj : j ≤ r.len) (h1 : At P r x i) (h2 : At P r y j) {K : Bool → M V β}
    (hk : Triple True P (K (decide (i = j))) Q) : Triple True P (cEq x y >>= K) Q := by
  refine h1.with fun _ h1 => h2.with fun _ h2 => eq_dec hr hS hi hj fun he => ?_
  refine cEq_reads h1 h2 ?_
  rw [he]
  exact hk

theorem deref_at (hr : r.Ok True Z S) (hS : P ⊢ₛ S ∗ R) (hi : i < r.len) (h1 : At P r x i) {K : Loc → M V β}
    (hk : Triple True (S ∗ R) (K (r.ref i)) Q) : Triple True P (cDeref x >>= K) Q := by
  refine h1.with fun _ h1 => cDeref_reads h1 (Triple.pre hS ?_)
  refine Triple.bind (Triple.frame (hr.deref i hi)) fun l => ?_
  rw [sep_assoc]
  exact Triple.pure_left fun h => h ▸ hk

theorem dist_at (hr : r.Ok True Z S) (hS : P ⊢ₛ S ∗ R) (hij : i ≤ j) (hj : j ≤ r.len) (h1 : At P r x i) (h2 : At P r y j) {K : Int → M V β}
    (hk : Triple True (S ∗ R) (K ((j : Int) - i)) Q) : Triple True P (cDistance Z x y >>= K) Q := by
  refine h1.with fun _ h1 => h2.with fun _ h2 => cDistance_reads h1 h2 (Triple.pre hS ?_)
  refine Triple.bind (Triple.frame (hr.dist i j hij hj)) fun l => ?_
  rw [sep_assoc]
  exact Triple.pure_left fun h => h ▸ hk

theorem less_at (hr : r.Ok True Z S) (hS : P ⊢ₛ S ∗ R) (hk : r.kind.random) (hi : i ≤ r.len) (hj : j ≤ r.len) (h1 : At P r x i) (h2 : At P r y j) {K : Bool → M V β}
    (hk : Triple True (S ∗ R) (K (decide (i < j))) Q) : Triple True P (cLess x y >>= K) Q := by
  refine h1.with fun _ h1 => h2.with fun _ h2 => cLess_reads ‹_› h1 h2 (Triple.pre hS ?_)
  refine Triple.bind (Triple.frame (hr.less ‹_› i j hi hj)) fun l => ?_
  rw [sep_assoc]
  exact Triple.pure_left fun h => h ▸ hk

theorem inc_at (hr : r.Ok True Z S) (he : P ⊢ₛ It r x i ∗ S ∗ R) (hi : i < r.len) {K : Nat → M V β}
    (hk : Triple True (It r x (i + 1) ∗ S ∗ R) (K x) Q) : Triple True P (cInc x >>= K) Q :=
  Triple.pre he (cInc_cps hr hi hk)

theorem dec_at (hr : r.Ok True Z S) (he : P ⊢ₛ It r x i ∗ S ∗ R) (hb : r.kind.bidir) (h0 : 0 < i) (hi : i ≤ r.len) {K : Nat → M V β}
    (hk : Triple True (It r x (i - 1) ∗ S ∗ R) (K x) Q) : Triple True P (cDec x >>= K) Q := by
  obtain ⟨k, rfl⟩ : ∃ k, i = k + 1 := ⟨i - 1, by omega⟩
  exact Triple.pre he (cDec_cps hr hb (by omega) hk)

theorem advance_at (hr : r.Ok True Z S) (he : P ⊢ₛ It r x i ∗ S ∗ R) {n : Int} (hi : i ≤ r.len) (h0 : 0 ≤ (i : Int) + n) (h1 : (i : Int) + n ≤ r.len) (h2 : 0 ≤ n ∨ r.kind.bidir)
    {K : Unit → M V β} (hk : Triple True (It r x ((i : Int) + n).toNat ∗ S ∗ R) (K ()) Q) : Triple True P (cAdvance x n >>= K) Q :=
  Triple.pre he (cAdvance_cps hr hi h0 h1 h2 hk)

/-- assignment of the position of another iterator of the same source -/
theorem assign_at (he : P ⊢ₛ It r x i ∗ R) (h2 : At (It r x i ∗ R) r y j) {K : Nat → M V β}
    (hk : Triple True (It r x j ∗ R) (K x) Q) : Triple True P (cAssign x y >>= K) Q := by
  refine Triple.pre he ?_
  refine h2.with fun _ h2 => ?_
  refine cAssign_cps h2 ?_
  rw [if_pos rfl]
  exact hk

theorem type_at (h1 : At P r x i) {K : Nat → M V β} (hk : Triple True P (K r.ty) Q) : Triple True P (typeOf x >>= K) Q := by
  refine h1.with fun hx h1 => ?_
  unfold typeOf
  rw [if_neg hx]
  exact h1.ldTy hk

theorem atLeast_at {c : Nat} (h1 : At P r x i) (hc : c ≤ r.kind.cate) {K : Unit → M V β} (hk : Triple True P (K ()) Q) : Triple True P (atLeast x c >>= K) Q := by
  refine h1.with fun hx h1 => ?_
  unfold atLeast
  rw [if_neg hx, bind_assoc]
  refine ldN_reads h1.2.1 ?_
  exact Triple.cassert_spec (by simpa using hc) hk

theorem exactly_at {c : Nat} (h1 : At P r x i) (hc : r.kind.cate = c) {K : Unit → M V β} (hk : Triple True P (K ()) Q) : Triple True P (exactly x c >>= K) Q := by
  refine h1.with fun hx h1 => ?_
  unfold exactly
  rw [if_neg hx, bind_assoc]
  refine ldN_reads h1.2.1 ?_
  exact Triple.cassert_spec (by simpa using hc) hk

theorem mutable_at (h1 : At P r x i) (hc : r.kind.type < 7) {K : Unit → M V β} (hk : Triple True P (K ()) Q) : Triple True P (isMutable x >>= K) Q := by
  refine h1.with fun hx h1 => ?_
  unfold isMutable
  rw [if_neg hx, bind_assoc]
  refine ldN_reads h1.2.2.1 ?_
  exact Triple.cassert_spec (by simpa using hc) hk

/-- the bytes of an iterator object -/
theorem memcpy_at {q : Nat} {xs : List (Val V)} (hl : xs.length = 5) (hg : At R r x i) {K : Unit → M V β} (hk : Triple True (It r q i ∗ R) (K ()) Q) :
    Triple True (blk q 5 ∗ arr q 1 xs ∗ R) (memcpy (q, 1) (x, 1) 5 >>= K) Q := by
  obtain ⟨R', he⟩ := hg
  have he2 : (blk q 5 ∗ arr q 1 xs ∗ R) ⊢ₛ It r x i ∗ R' ∗ blk q 5 ∗ arr q 1 xs := ent_trans (sep_mono (ent_refl _) (sep_mono (ent_refl _) he)) (by cancel)
  refine Triple.fact (p := q ≠ x ∧ x ≠ 0) (fun h hh => ?_) fun hqx => ?_
  · have hp : (pts (q, 0) (.sz 5) ∗ pts (x, 0) (.sz 5) ∗ _) h := (ent_trans he2 (show _ ⊢ₛ _ by unfold It isIt; cancel)) h hh
    exact ⟨fun e => pts_pts_ne hp (by rw [e]), isIt_ne (he2 h hh)⟩
  have hI : ItAt (blk q 5 ∗ arr q 1 xs ∗ R) r.kind r.ty x (r.pay i) := .of_ent hqx.2 he2
  unfold memcpy memmove
  rw [if_neg (by rintro ⟨h, _⟩; exact hqx.1 h)]
  simp only [loadN, bind_assoc, pure_bind]
  refine load_reads (fun h hh => (hI.2.1 h hh)) ?_
  refine load_reads (fun h hh => (hI.2.2.1 h hh)) ?_
  refine load_reads (fun h hh => (hI.2.2.2.1 h hh)) ?_
  refine load_reads (fun h hh => (hI.2.2.2.2.1 h hh)) ?_
  refine load_reads hI.2.2.2.2.2 ?_
  refine Triple.bind_frame (R := blk q 5 ∗ R) (storeN_spec (b := q) (i := 1) (xs := xs) (ys := [.num r.kind.cate, .num r.kind.type, .num r.kind.ops, .num r.ty, (r.pay i).val]) ?_) (by cancel) fun _ => ?_
  · rw [hl]; rfl
  · refine Triple.pre ?_ hk
    unfold It
    rw [isIt_arr]
    cancel

/-- a new copy -/
theorem newCopy_at (h1 : At P r x i) {K : Nat → M V β} (hk : ∀ q, q ≠ 0 → Triple True (It r q i ∗ P) (K q) Q) : Triple True P (newCopy x >>= K) Q := by
  refine h1.with fun hx h => ?_
  unfold newCopy
  simp only [bind_assoc]
  refine h.opsOf ?_
  refine h.isIter ?_
  simp only [decide_true, ↓reduceIte, bind_assoc]
  refine Triple.mallocG_spec (fun hn => absurd trivial hn) (fun q j hq => ?_)
  simp only [ne_eq, hq, not_false_eq_true, ↓reduceIte, pure_bind, bind_assoc]
  exact memcpy_at (by simp) h1 (hk q hq)

theorem free_at (he : P ⊢ₛ It r x i ∗ R) {K : Unit → M V β} (hk : Triple True R (K ()) Q) : Triple True P (free x >>= K) Q := by
  refine Triple.pre he ?_
  unfold It
  rw [isIt_arr]
  exact Triple.free_spec rfl hk

/-- A `c_iterator_t**` argument `o` of a caller with memory `A`: its target may be checked, and a result at position `i` of `r` turns `A` into `B i` (the second argument of `B` is the new value of a
local variable). -/
structure OutOk (r : Src V) (o : Out) (A : HProp V) (B : Nat → Nat → HProp V) : Prop where
  chk : ∀ {c : Nat}, c ≤ r.kind.cate → ∀ {P R : HProp V}, (P ⊢ₛ A ∗ R) → ∀ {γ : Type} {K : Unit → M V γ} {Q : γ → HProp V}, Triple True P (K ()) Q → Triple True P (o.atLeast c >>= K) Q
  low : ∀ {low : Nat → Nat} {c : Nat}, (∀ q, q ≠ 0 → c ≤ low q) → ∀ {P R : HProp V}, (P ⊢ₛ A ∗ R) → ∀ {γ : Type} {K : Unit → M V γ} {Q : γ → HProp V}, Triple True P (K ()) Q →
    Triple True P (o.lowCheck low c >>= K) Q
  set : ∀ {P R : HProp V} {w i : Nat}, (P ⊢ₛ A ∗ R) → At R r w i → ∀ {γ : Type} {K : Nat → M V γ} {Q : γ → HProp V}, (∀ a, Triple True (B i a ∗ R) (K a) Q) → Triple True P (o.set w >>= K) Q

/-- The same for a result that is an iterator `w` of the caller. -/
def OutIn (r : Src V) (o : Out) (A : HProp V) (B : Nat → Nat → HProp V) (w i : Nat) : Prop :=
  ∀ {P R : HProp V}, (P ⊢ₛ A ∗ R) → ∀ {γ : Type} {K : Nat → M V γ} {Q : γ → HProp V}, (∀ a, Triple True (B i a ∗ R) (K a) Q) → Triple True P (o.set w >>= K) Q

theorem OutOk.frame {o : Out} {B : Nat → Nat → HProp V} {G : HProp V} (h : OutOk r o A B) : OutOk r o (A ∗ G) (fun i a => B i a ∗ G) where
  chk := by
    intro c hc P R he γ K Q hk
    exact h.chk hc (R := G ∗ R) (ent_trans he (by cancel)) hk
  low := by
    intro low c hl P R he γ K Q hk
    exact h.low hl (R := G ∗ R) (ent_trans he (by cancel)) hk
  set := by
    intro P R w i he h1 γ K Q hk
    refine h.set (R := G ∗ R) (ent_trans he (by cancel)) (h1.mono (R := G) (by cancel)) fun a => ?_
    refine Triple.pre ?_ (hk a)
    cancel

theorem OutIn.frame {o : Out} {B : Nat → Nat → HProp V} {G : HProp V} {w : Nat} (h : OutIn r o A B w i) : OutIn r o (A ∗ G) (fun i a => B i a ∗ G) w i := by
  intro P R he γ K Q hk
  refine h (R := G ∗ R) (ent_trans he (by cancel)) fun a => ?_
  refine Triple.pre ?_ (hk a)
  cancel

/-! ### the caller passes NULL -/
section
variable {k w : Nat}

theorem set_null {K : Nat → M V β} (hk : ∀ a, Triple True P (K a) Q) : Triple True P (Out.set (.var (0, k)) w >>= K) Q := by
  unfold Out.set copyOrAssign
  simp only [↓reduceIte, pure_bind]
  exact hk 0

theorem OutOk.null : OutOk r (.var (0, k)) A (fun _ _ => A) where
  chk := by
    intro c _ P R _ γ K Q hk
    unfold Out.atLeast
    simp only [↓reduceIte, pure_bind]
    exact hk
  low := by
    intro low c _ P R _ γ K Q hk
    unfold Out.lowCheck
    simp only [↓reduceIte, pure_bind]
    exact hk
  set := by
    intro P R w i he _ γ K Q hk
    exact set_null fun a => Triple.pre he (hk a)

theorem OutIn.null : OutIn r (.var (0, k)) A (fun _ _ => A) w i := by
  intro P R he γ K Q hk
  exact set_null fun a => Triple.pre he (hk a)
end

/-! ### the caller passes the address of a variable that is NULL: a new iterator is made -/
section
variable {l : Loc} {w : Nat}

theorem set_fresh (hw : At R r w i) {K : Nat → M V β} (hk : ∀ q, q ≠ 0 → Triple True (pts l (.num q) ∗ It r q i ∗ R) (K 0) Q) :
    Triple True (pts l (.num 0) ∗ R) (Out.set (.var l) w >>= K) Q := by
  refine Triple.fact (p := l.1 ≠ 0) (fun h hh => pts_ne_zero hh) fun hl => ?_
  unfold Out.set copyOrAssign
  simp only [hl, ↓reduceIte, bind_assoc]
  step
  simp only [↓reduceIte, bind_assoc, pure_bind]
  unfold cCopy allocAndCopy
  simp only [bind_assoc, hl, ↓reduceIte]
  have h1 : At (pts l (.num 0) ∗ R) r w i := hw.mono (R := pts l (.num 0)) (by cancel)
  refine h1.with fun hx h1 => ?_
  refine h1.opsOf ?_
  step
  simp only [ne_eq, not_true_eq_false, ↓reduceIte, bind_assoc]
  refine h1.isIter ?_
  simp only [decide_true, ↓reduceIte, bind_assoc]
  refine Triple.mallocG_spec (fun hn => absurd trivial hn) (fun q j hq => ?_)
  step
  step
  simp only [hq, not_false_eq_true, ↓reduceIte, bind_assoc]
  refine Triple.pre (P' := blk q 5 ∗ arr q 1 ((List.range 5).map fun i => Val.num (j (i + 1))) ∗ pts l (.num q) ∗ R) (by cancel) ?_
  refine memcpy_at (r := r) (i := i) (by simp) (hw.mono (R := pts l (.num q)) (by cancel)) ?_
  refine Triple.pre ?_ (hk q hq)
  cancel

theorem OutOk.fresh : OutOk r (.var l) (pts l (.num 0) ∗ A) (fun i _ => ∃ₛ q, ⌜q ≠ 0⌝ ∗ pts l (.num q) ∗ It r q i ∗ A) where
  chk := by
    intro c _ P R he γ K Q hk
    refine Triple.fact (p := l.1 ≠ 0) (fun h hh => pts_ne_zero (R := A ∗ R) ((ent_trans he (by cancel)) h hh)) fun hl => ?_
    unfold Out.atLeast
    simp only [hl, ↓reduceIte, bind_assoc]
    refine ldN_reads (.of_ent (R := A ∗ R) (ent_trans he (by cancel))) ?_
    simp only [↓reduceIte, pure_bind]
    exact hk
  low := by
    intro low c _ P R he γ K Q hk
    refine Triple.fact (p := l.1 ≠ 0) (fun h hh => pts_ne_zero (R := A ∗ R) ((ent_trans he (by cancel)) h hh)) fun hl => ?_
    unfold Out.lowCheck
    simp only [hl, ↓reduceIte, bind_assoc]
    refine ldN_reads (.of_ent (R := A ∗ R) (ent_trans he (by cancel))) ?_
    simp only [↓reduceIte, pure_bind]
    exact hk
  set := by
    intro P R w i he h1 γ K Q hk
    refine Triple.pre (P' := pts l (.num 0) ∗ A ∗ R) (ent_trans he (by cancel)) ?_
    refine set_fresh (r := r) (i := i) (h1.mono (R := A) (by cancel)) fun q hq => ?_
    refine Triple.pre ?_ (hk 0)
    refine ent_ex_right' q ?_
    rw [sep_assoc]
    refine ent_pure_right hq ?_
    cancel

theorem OutIn.fresh (hA : At A r w i) : OutIn r (.var l) (pts l (.num 0) ∗ A) (fun i _ => ∃ₛ q, ⌜q ≠ 0⌝ ∗ pts l (.num q) ∗ It r q i ∗ A) w i := by
  intro P R he γ K Q hk
  refine Triple.pre (P' := pts l (.num 0) ∗ A ∗ R) (ent_trans he (by cancel)) ?_
  refine set_fresh (r := r) (i := i) (hA.mono (R := R) (by cancel)) fun q hq => ?_
  refine Triple.pre ?_ (hk 0)
  refine ent_ex_right' q ?_
  rw [sep_assoc]
  refine ent_pure_right hq ?_
  cancel
end

/-! ### the caller passes the address of a variable that points to an iterator (which may be one of the arguments): it is moved -/
section
variable {l : Loc} {w q k : Nat}

theorem set_old (hw : At (pts l (.num q) ∗ It r q k ∗ R) r w i) {K : Nat → M V β} (hk : Triple True (pts l (.num q) ∗ It r q i ∗ R) (K 0) Q) :
    Triple True (pts l (.num q) ∗ It r q k ∗ R) (Out.set (.var l) w >>= K) Q := by
  refine Triple.fact (p := l.1 ≠ 0) (fun h hh => pts_ne_zero hh) fun hl => ?_
  refine Triple.fact (p := q ≠ 0) (fun h hh => isIt_ne ((show _ ⊢ₛ It r q k ∗ pts l (.num q) ∗ R by cancel) h hh)) fun hq => ?_
  unfold Out.set copyOrAssign
  simp only [hl, ↓reduceIte, bind_assoc]
  step
  simp only [hq, ↓reduceIte, bind_assoc, pure_bind]
  refine assign_at (r := r) (i := k) (j := i) (R := pts l (.num q) ∗ R) (by cancel) ?_ ?_
  · obtain ⟨R', h⟩ := hw
    exact ⟨R', ent_trans (by cancel) h⟩
  · refine Triple.pre ?_ hk
    cancel

theorem OutOk.old : OutOk r (.var l) (pts l (.num q) ∗ It r q k ∗ A) (fun i _ => pts l (.num q) ∗ It r q i ∗ A) where
  chk := by
    intro c hc P R he γ K Q hk
    refine Triple.fact (p := l.1 ≠ 0) (fun h hh => pts_ne_zero (R := It r q k ∗ A ∗ R) ((ent_trans he (by cancel)) h hh)) fun hl => ?_
    unfold Out.atLeast
    simp only [hl, ↓reduceIte, bind_assoc]
    refine ldN_reads (.of_ent (R := It r q k ∗ A ∗ R) (ent_trans he (by cancel))) ?_
    have hA : At P r q k := ⟨_, ent_trans he (show _ ⊢ₛ It r q k ∗ pts l (.num q) ∗ A ∗ R by cancel)⟩
    refine hA.with fun hq _ => ?_
    simp only [hq, ↓reduceIte]
    exact atLeast_at hA hc hk
  low := by
    intro low c hlow P R he γ K Q hk
    refine Triple.fact (p := l.1 ≠ 0) (fun h hh => pts_ne_zero (R := It r q k ∗ A ∗ R) ((ent_trans he (by cancel)) h hh)) fun hl => ?_
    unfold Out.lowCheck
    simp only [hl, ↓reduceIte, bind_assoc]
    refine ldN_reads (.of_ent (R := It r q k ∗ A ∗ R) (ent_trans he (by cancel))) ?_
    have hA : At P r q k := ⟨_, ent_trans he (show _ ⊢ₛ It r q k ∗ pts l (.num q) ∗ A ∗ R by cancel)⟩
    refine hA.with fun hq _ => ?_
    simp only [hq, ↓reduceIte]
    exact Triple.cassert_spec (by simpa using hlow q hq) hk
  set := by
    intro P R w i he h1 γ K Q hk
    refine Triple.pre (P' := pts l (.num q) ∗ It r q k ∗ A ∗ R) (ent_trans he (by cancel)) ?_
    refine set_old (r := r) (i := i) (h1.mono (R := pts l (.num q) ∗ It r q k ∗ A) (by cancel)) ?_
    refine Triple.pre ?_ (hk 0)
    cancel

theorem OutIn.old (hA : At (pts l (.num q) ∗ It r q k ∗ A) r w i) : OutIn r (.var l) (pts l (.num q) ∗ It r q k ∗ A) (fun i _ => pts l (.num q) ∗ It r q i ∗ A) w i := by
  intro P R he γ K Q hk
  refine Triple.pre (P' := pts l (.num q) ∗ It r q k ∗ A ∗ R) (ent_trans he (by cancel)) ?_
  refine set_old (r := r) (i := i) (hA.mono (R := R) (by cancel)) ?_
  refine Triple.pre ?_ (hk 0)
  cancel
end

/-! ### the address of a local variable -/
section
variable {w q k : Nat}

theorem set_loc0 (hw : At P r w i) {K : Nat → M V β} (hk : ∀ q, q ≠ 0 → Triple True (It r q i ∗ P) (K q) Q) : Triple True P (Out.set (.val 0) w >>= K) Q := by
  unfold Out.set
  simp only [↓reduceIte]
  exact newCopy_at hw hk

theorem OutOk.loc0 : OutOk r (.val 0) A (fun i a => It r a i ∗ A) where
  chk := by
    intro c _ P R _ γ K Q hk
    unfold Out.atLeast
    simp only [↓reduceIte, pure_bind]
    exact hk
  low := by
    intro low c _ P R _ γ K Q hk
    unfold Out.lowCheck
    simp only [↓reduceIte, pure_bind]
    exact hk
  set := by
    intro P R w i he h1 γ K Q hk
    refine Triple.pre he ?_
    refine set_loc0 (r := r) (i := i) (h1.mono (R := A) (by cancel)) fun q hq => ?_
    refine Triple.pre ?_ (hk q)
    cancel

theorem set_loc (hw : At (It r q k ∗ R) r w i) {K : Nat → M V β} (hk : Triple True (It r q i ∗ R) (K q) Q) :
    Triple True (It r q k ∗ R) (Out.set (.val q) w >>= K) Q := by
  refine Triple.fact (p := q ≠ 0) (fun h hh => isIt_ne hh) fun hq => ?_
  unfold Out.set
  simp only [hq, ↓reduceIte, bind_assoc, pure_bind]
  exact assign_at (r := r) (i := k) (j := i) (ent_refl _) hw hk

theorem OutOk.loc : OutOk r (.val q) (It r q k ∗ A) (fun i a => ⌜a = q⌝ ∗ It r q i ∗ A) where
  chk := by
    intro c hc P R he γ K Q hk
    have hA : At P r q k := ⟨_, ent_trans he (show _ ⊢ₛ It r q k ∗ A ∗ R by cancel)⟩
    refine hA.with fun hq _ => ?_
    unfold Out.atLeast
    simp only [hq, ↓reduceIte]
    exact atLeast_at hA hc hk
  low := by
    intro low c hlow P R he γ K Q hk
    have hA : At P r q k := ⟨_, ent_trans he (show _ ⊢ₛ It r q k ∗ A ∗ R by cancel)⟩
    refine hA.with fun hq _ => ?_
    unfold Out.lowCheck
    simp only [hq, ↓reduceIte]
    exact Triple.cassert_spec (by simpa using hlow q hq) hk
  set := by
    intro P R w i he h1 γ K Q hk
    refine Triple.pre (P' := It r q k ∗ A ∗ R) (ent_trans he (by cancel)) ?_
    refine set_loc (r := r) (i := i) (h1.mono (R := It r q k ∗ A) (by cancel)) ?_
    refine Triple.pre ?_ (hk q)
    rw [sep_assoc]
    refine ent_pure_right rfl ?_
    cancel

theorem OutIn.loc (hA : At (It r q k ∗ A) r w i) : OutIn r (.val q) (It r q k ∗ A) (fun i a => ⌜a = q⌝ ∗ It r q i ∗ A) w i := by
  intro P R he γ K Q hk
  refine Triple.pre (P' := It r q k ∗ A ∗ R) (ent_trans he (by cancel)) ?_
  refine set_loc (r := r) (i := i) (hA.mono (R := R) (by cancel)) ?_
  refine Triple.pre ?_ (hk q)
  rw [sep_assoc]
  refine ent_pure_right rfl ?_
  cancel
end

/-! ### elements -/

section
variable {c : Heap V} {Ψ : α → Heap V → Prop}

theorem testAt_at (hr : r.Ok True Z S) (hi : i < r.len) {pred : V → Bool} {K' : Bool → M V α} (hw : Wp (test pred (r.ref i) >>= K') c Ψ) (hS : P ⊢ₛ S ∗ Ex c ∗ R) (h1 : At P r x i)
    {K : Bool → M V β} (hk : ∀ b c1, Wp (K' b) c1 Ψ → Triple True (S ∗ Ex c1 ∗ R) (K b) Q) : Triple True P (testAt pred x >>= K) Q := by
  unfold testAt
  rw [bind_assoc]
  refine deref_at hr hS hi h1 ?_
  refine (Vis.test pred (r.ref i)).use hw (F := S ∗ R) (by cancel) fun b c1 hw1 => ?_
  refine Triple.pre ?_ (hk b c1 hw1)
  cancel

theorem cmpV_at (hr : r.Ok True Z S) (hi : i < r.len) {comp : V → V → Bool} {v : Loc} {K' : Bool → M V α} (hw : Wp (cmp comp (r.ref i) v >>= K') c Ψ) (hS : P ⊢ₛ S ∗ Ex c ∗ R) (h1 : At P r x i)
    {K : Bool → M V β} (hk : ∀ b c1, Wp (K' b) c1 Ψ → Triple True (S ∗ Ex c1 ∗ R) (K b) Q) : Triple True P (cmpV comp x v >>= K) Q := by
  unfold cmpV
  rw [bind_assoc]
  refine deref_at hr hS hi h1 ?_
  refine (Vis.cmp comp (r.ref i) v).use hw (F := S ∗ R) (by cancel) fun b c1 hw1 => ?_
  refine Triple.pre ?_ (hk b c1 hw1)
  cancel

theorem vCmp_at (hr : r.Ok True Z S) (hi : i < r.len) {comp : V → V → Bool} {v : Loc} {K' : Bool → M V α} (hw : Wp (cmp comp v (r.ref i) >>= K') c Ψ) (hS : P ⊢ₛ S ∗ Ex c ∗ R) (h1 : At P r x i)
    {K : Bool → M V β} (hk : ∀ b c1, Wp (K' b) c1 Ψ → Triple True (S ∗ Ex c1 ∗ R) (K b) Q) : Triple True P (vCmp comp v x >>= K) Q := by
  unfold vCmp
  rw [bind_assoc]
  refine deref_at hr hS hi h1 ?_
  refine (Vis.cmp comp v (r.ref i)).use hw (F := S ∗ R) (by cancel) fun b c1 hw1 => ?_
  refine Triple.pre ?_ (hk b c1 hw1)
  cancel

theorem equalV_at (hr : r.Ok True Z S) (hi : i < r.len) {E : Nat → V → V → Bool} {v : Loc} {K' : Bool → M V α} (hw : Wp (cmp (E r.ty) (r.ref i) v >>= K') c Ψ) (hS : P ⊢ₛ S ∗ Ex c ∗ R) (h1 : At P r x i)
    {K : Bool → M V β} (hk : ∀ b c1, Wp (K' b) c1 Ψ → Triple True (S ∗ Ex c1 ∗ R) (K b) Q) : Triple True P (equalV E x v >>= K) Q := by
  unfold equalV
  simp only [bind_assoc]
  refine type_at h1 ?_
  refine deref_at hr hS hi h1 ?_
  refine (Vis.cmp (E r.ty) (r.ref i) v).use hw (F := S ∗ R) (by cancel) fun b c1 hw1 => ?_
  refine Triple.pre ?_ (hk b c1 hw1)
  cancel

theorem assignV_at (hr : r.Ok True Z S) (hi : i < r.len) {v : Loc} {K' : Unit → M V α} (hw : Wp (asg (r.ref i) v >>= K') c Ψ) (hS : P ⊢ₛ S ∗ Ex c ∗ R) (h1 : At P r x i)
    {K : Unit → M V β} (hk : ∀ c1, Wp (K' ()) c1 Ψ → Triple True (S ∗ Ex c1 ∗ R) (K ()) Q) : Triple True P (assignV x v >>= K) Q := by
  unfold assignV
  simp only [bind_assoc]
  refine type_at h1 ?_
  refine deref_at hr hS hi h1 ?_
  refine (Vis.asg (r.ref i) v).use hw (F := S ∗ R) (by cancel) fun b c1 hw1 => ?_
  refine Triple.pre ?_ (hk c1 hw1)
  cancel

theorem cmpAt_at (hr : r.Ok True Z S) (hr2 : r2.Ok True Z S) (hi : i < r.len) (hj : j < r2.len) {comp : V → V → Bool} {K' : Bool → M V α} (hw : Wp (cmp comp (r.ref i) (r2.ref j) >>= K') c Ψ)
    (hS : P ⊢ₛ S ∗ Ex c ∗ R) (h1 : At P r x i) (h2 : At (S ∗ Ex c ∗ R) r2 y j)
    {K : Bool → M V β} (hk : ∀ b c1, Wp (K' b) c1 Ψ → Triple True (S ∗ Ex c1 ∗ R) (K b) Q) : Triple True P (cmpAt comp x y >>= K) Q := by
  unfold cmpAt
  simp only [bind_assoc]
  refine deref_at hr hS hi h1 ?_
  refine deref_at hr2 (ent_refl _) hj h2 ?_
  refine (Vis.cmp comp (r.ref i) (r2.ref j)).use hw (F := S ∗ R) (by cancel) fun b c1 hw1 => ?_
  refine Triple.pre ?_ (hk b c1 hw1)
  cancel

theorem assignAt_at (hr : r.Ok True Z S) (hr2 : r2.Ok True Z S) (hi : i < r.len) (hj : j < r2.len) {K' : Unit → M V α} (hw : Wp (asg (r.ref i) (r2.ref j) >>= K') c Ψ)
    (hS : P ⊢ₛ S ∗ Ex c ∗ R) (h1 : At P r x i) (h2 : At (S ∗ Ex c ∗ R) r2 y j)
    {K : Unit → M V β} (hk : ∀ c1, Wp (K' ()) c1 Ψ → Triple True (S ∗ Ex c1 ∗ R) (K ()) Q) : Triple True P (assignAt x y >>= K) Q := by
  unfold assignAt
  simp only [bind_assoc]
  refine type_at h1 ?_
  refine deref_at hr hS hi h1 ?_
  refine deref_at hr2 (ent_refl _) hj h2 ?_
  refine (Vis.asg (r.ref i) (r2.ref j)).use hw (F := S ∗ R) (by cancel) fun b c1 hw1 => ?_
  refine Triple.pre ?_ (hk c1 hw1)
  cancel
end

/-! ### swaps -/

/-- the elements of a source are not at NULL -/
def _root_.CC.Iter.Src.Real (S : HProp V) (r : Src V) : Prop := ∀ h (F : HProp V), (S ∗ F) h → ∀ i, i < r.len → (r.ref i).1 ≠ 0

theorem swap_at {l l' : Loc} {c : Heap V} {Ψ : α → Heap V → Prop} {K' : Unit → M V α} (hl : l.1 ≠ 0) (hl' : l'.1 ≠ 0) (hw : Wp (swp l l' >>= K') c Ψ) (hS : P ⊢ₛ Ex c ∗ R)
    {K : Unit → M V β} (hk : ∀ c1, Wp (K' ()) c1 Ψ → Triple True (Ex c1 ∗ R) (K ()) Q) : Triple True P (swap l l' >>= K) Q := by
  unfold swap
  unfold swp at hw
  simp only [hl, hl', or_self, ↓reduceIte, bind_assoc] at hw ⊢
  refine Triple.pre hS ?_
  apply mallocO1
  · intro h
    exact absurd trivial h
  · intro t ht
    simp only [ht, ↓reduceIte, bind_assoc]
    refine (Vis.ldV l).use hw (F := blk t 1 ∗ pts (t, 1) (.obj none) ∗ R) (by cancel) fun v c1 hw => ?_
    step
    refine (Vis.asg l l').use hw (F := pts (t, 1) (.obj (some v)) ∗ blk t 1 ∗ R) (by cancel) fun _ c1 hw => ?_
    rw [asg]
    simp only [bind_assoc]
    step
    refine (Vis.wr l' v).use hw (F := pts (t, 1) (.obj (some v)) ∗ blk t 1 ∗ R) (by cancel) fun _ c1 hw => ?_
    step
    call freeV1
    intro _
    rw [emp_sep]
    refine Triple.pre ?_ (hk c1 hw)
    cancel

theorem swapAt_at {c : Heap V} {Ψ : α → Heap V → Prop} {K' : Unit → M V α} (h1 : At P r x i) (h2 : At P r2 y j) (hr : r.Ok True Z S) (hr2 : r2.Ok True Z S) (hn : r.Real S) (hn2 : r2.Real S)
    (hw : Wp (swp (r.ref i) (r2.ref j) >>= K') c Ψ) (hS : P ⊢ₛ S ∗ Ex c ∗ R) (hb : S ∗ Ex c ∗ R ⊢ₛ P) (hi : i < r.len) (hj : j < r2.len)
    {K : Unit → M V β} (hk : ∀ c1, Wp (K' ()) c1 Ψ → Triple True (S ∗ Ex c1 ∗ R) (K ()) Q) : Triple True P (swapAt x y >>= K) Q := by
  unfold swapAt
  simp only [bind_assoc]
  refine type_at h1 ?_
  refine deref_at hr hS hi h1 ?_
  refine deref_at hr2 (ent_refl _) hj (h2.mono (R := emp) (by rw [sep_emp]; exact hb)) ?_
  refine Triple.fact (p := (r.ref i).1 ≠ 0 ∧ (r2.ref j).1 ≠ 0) (fun h hh => ⟨hn h _ hh i hi, hn2 h _ hh j hj⟩) fun hx => ?_
  refine swap_at hx.1 hx.2 hw (R := S ∗ R) (by cancel) fun c1 hw => ?_
  refine Triple.pre ?_ (hk c1 hw)
  cancel

theorem iterSwap_at {c : Heap V} {Ψ : α → Heap V → Prop} {K' : Unit → M V α} (h1 : At P r x i) (h2 : At P r2 y j) (hr : r.Ok True Z S) (hr2 : r2.Ok True Z S) (hn : r.Real S) (hn2 : r2.Real S)
    (hw : Wp (swp (r.ref i) (r2.ref j) >>= K') c Ψ) (hS : P ⊢ₛ S ∗ Ex c ∗ R) (hb : S ∗ Ex c ∗ R ⊢ₛ P) (hi : i < r.len) (hj : j < r2.len) (hm : r.kind.type < 7) (hm2 : r2.kind.type < 7)
    (hty : r.ty = r2.ty)
    {K : Unit → M V β} (hk : ∀ c1, Wp (K' ()) c1 Ψ → Triple True (S ∗ Ex c1 ∗ R) (K ()) Q) : Triple True P (iterSwap x y >>= K) Q := by
  have c1 : 2 ≤ r.kind.cate := by cases r.kind <;> decide
  have c2 : 2 ≤ r2.kind.cate := by cases r2.kind <;> decide
  refine h1.with fun hx _ => h2.with fun hy _ => ?_
  unfold iterSwap
  simp only [hx, hy, or_self, ↓reduceIte, bind_assoc]
  refine atLeast_at h1 c1 ?_
  refine atLeast_at h2 c2 ?_
  refine mutable_at h1 hm ?_
  refine mutable_at h2 hm2 ?_
  refine type_at h1 ?_
  refine type_at h2 ?_
  refine Triple.cassert_spec (by simpa using hty) ?_
  exact swapAt_at h1 h2 hr hr2 hn hn2 hw hS hb hi hj hk

/-! ### positions beyond the end

A destination has room for what is written there; how much that is may depend on the elements.  At the level of positions a destination is given by `r.slots`, which has no memory beyond the end. -/

/-- the slots of a source; NULL beyond the end -/
def _root_.CC.Iter.Src.slots (r : Src V) : Slots := fun k => if k < r.len then r.ref k else (0, 0)

theorem ldV_inv {s s' : Mem V} {l : Loc} {v : V} (h : ldV l s = some (.ok (v, s'))) : s.cells l = some (.obj (some v)) := by
  unfold ldV at h
  obtain ⟨w, s1, e1, e2⟩ := bind_inv h
  obtain ⟨hw, _⟩ := load_inv e1
  split at e2
  · cases e2
    exact hw
  · cases e2

theorem wr_null {v : V} {s s' : Mem V} {k : Nat} (h : wr (0, k) v s = some (.ok ((), s'))) : False := by
  unfold wr at h
  obtain ⟨w, s1, e1, _⟩ := bind_inv h
  have := ldV_inv e1
  rw [s.hnul] at this
  cases this

/-- a write in a destination is not beyond its end -/
theorem room_wr {a : Nat} {v : V} {c : Heap V} {Ψ : α → Heap V → Prop} {K' : Unit → M V α} (hw : Wp (wr (r.slots a) v >>= K') c Ψ) (he : P ⊢ₛ Ex c ∗ R) {m : M V β}
    (hk : a < r.len → Wp (wr (r.ref a) v >>= K') c Ψ → Triple True P m Q) : Triple True P m Q := by
  by_cases h : a < r.len
  · refine hk h ?_
    simpa only [Src.slots, h, ↓reduceIte] using hw
  · intro s G _ hs
    have hs' : ((Ex c ∗ R) ∗ G) s.cells := sep_mono he (ent_refl _) _ hs
    obtain ⟨d, hd, he, hq⟩ := ex_sep_split hs'
    obtain ⟨_, _, _, _, b, s', e, _⟩ := hw.start s he
    obtain ⟨_, s1, e1, _⟩ := bind_inv e
    simp only [Src.slots, h, ↓reduceIte] at e1
    exact (wr_null e1).elim

theorem room_asg {a : Nat} {l : Loc} {c : Heap V} {Ψ : α → Heap V → Prop} {K' : Unit → M V α} (hw : Wp (asg (r.slots a) l >>= K') c Ψ) (he : P ⊢ₛ Ex c ∗ R) {m : M V β}
    (hk : a < r.len → Wp (asg (r.ref a) l >>= K') c Ψ → Triple True P m Q) : Triple True P m Q := by
  by_cases h : a < r.len
  · refine hk h ?_
    simpa only [Src.slots, h, ↓reduceIte] using hw
  · intro s G _ hs
    have hs' : ((Ex c ∗ R) ∗ G) s.cells := sep_mono he (ent_refl _) _ hs
    obtain ⟨d, hd, he, hq⟩ := ex_sep_split hs'
    obtain ⟨_, _, _, _, b, s', e, _⟩ := hw.start s he
    obtain ⟨_, s1, e1, _⟩ := bind_inv e
    unfold asg at e1
    obtain ⟨_, s2, _, e3⟩ := bind_inv e1
    simp only [Src.slots, h, ↓reduceIte] at e3
    exact (wr_null e3).elim

theorem seg_slots {vs : List V} (h : i + vs.length ≤ r.len) : seg r.slots i vs = seg r.ref i vs := by
  induction vs generalizing i with
  | nil => rfl
  | cons v vs ih =>
    simp only [List.length_cons] at h
    rw [seg, seg, ih (by omega)]
    simp only [Src.slots, show i < r.len by omega, ↓reduceIte]

end CC.IAlgo
