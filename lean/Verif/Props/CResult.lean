import Verif.Props.CIterAll
/-!
# Property C66: a result is delivered or the call is rejected

An algorithm that delivers a position does so through a variable of the caller; if the variable holds an iterator object, that object is moved.  The algorithms check (by `assert`) the *category* of that
object, but it can be moved only if it is of the same *kind* (container and direction) as the range; and `c_modifying.c` does not even check the category, it looks at the bits of the address of the object.
-/
namespace CC.IAlgo
open CC CC.Tac CC.Iter CC.Algo
variable {V α β : Type} {Z : Nat → Nat} {S A G G1 P R F : HProp V} {r r' r2 : Src V} {first last dFirst w q k i j : Nat} {l : Loc} {vs us : List V} {low : Nat → Nat} {o : IAlgo.Out} {B : Nat → HProp V}

theorem set_other (hne : r'.kind ≠ r.kind) (hw : At (pts l (.num q) ∗ It r' q k ∗ R) r w i) {Q : β → HProp V} {K : Nat → M V β} (hk : Triple True (pts l (.num q) ∗ It r' q k ∗ R) (K 0) Q) :
    Triple True (pts l (.num q) ∗ It r' q k ∗ R) (Out.set (.var l) w >>= K) Q := by
  refine Triple.fact (p := l.1 ≠ 0) (fun h hh => pts_ne_zero hh) fun hl => ?_
  refine Triple.fact (p := q ≠ 0) (fun h hh => isIt_ne ((show _ ⊢ₛ It r' q k ∗ pts l (.num q) ∗ R by cancel) h hh)) fun hq => ?_
  unfold Out.set copyOrAssign
  simp only [hl, ↓reduceIte, bind_assoc]
  step
  simp only [hq, ↓reduceIte, bind_assoc, pure_bind]
  refine Triple.pre (P' := It r' q k ∗ (pts l (.num q) ∗ R)) (by cancel) ?_
  have hw' : At (It r' q k ∗ (pts l (.num q) ∗ R)) r w i := by
    obtain ⟨R', h⟩ := hw
    exact ⟨R', ent_trans (by cancel) h⟩
  refine hw'.with fun _ h2 => ?_
  refine cAssign_cps h2 ?_
  rw [if_neg hne]
  refine Triple.pre ?_ hk
  cancel

/-- A variable that holds an iterator of another kind (but a sufficient category): it passes the checks and nothing is delivered. -/
theorem OutOk.other (hne : r'.kind ≠ r.kind) (hge : r.kind.cate ≤ r'.kind.cate) : OutOk r (.var l) (pts l (.num q) ∗ It r' q k ∗ A) (fun _ _ => pts l (.num q) ∗ It r' q k ∗ A) where
  chk := by
    intro c hc P R he γ K Q hk
    refine Triple.fact (p := l.1 ≠ 0) (fun h hh => pts_ne_zero (R := It r' q k ∗ A ∗ R) ((ent_trans he (by cancel)) h hh)) fun hl => ?_
    unfold Out.atLeast
    simp only [hl, ↓reduceIte, bind_assoc]
    refine ldN_reads (.of_ent (R := It r' q k ∗ A ∗ R) (ent_trans he (by cancel))) ?_
    have hA : At P r' q k := ⟨_, ent_trans he (show _ ⊢ₛ It r' q k ∗ pts l (.num q) ∗ A ∗ R by cancel)⟩
    refine hA.with fun hq _ => ?_
    simp only [hq, ↓reduceIte]
    exact atLeast_at hA (Nat.le_trans hc hge) hk
  low := by
    intro low c hlow P R he γ K Q hk
    refine Triple.fact (p := l.1 ≠ 0) (fun h hh => pts_ne_zero (R := It r' q k ∗ A ∗ R) ((ent_trans he (by cancel)) h hh)) fun hl => ?_
    unfold Out.lowCheck
    simp only [hl, ↓reduceIte, bind_assoc]
    refine ldN_reads (.of_ent (R := It r' q k ∗ A ∗ R) (ent_trans he (by cancel))) ?_
    have hA : At P r' q k := ⟨_, ent_trans he (show _ ⊢ₛ It r' q k ∗ pts l (.num q) ∗ A ∗ R by cancel)⟩
    refine hA.with fun hq _ => ?_
    simp only [hq, ↓reduceIte]
    exact Triple.cassert_spec (by simpa using hlow q hq) hk
  set := by
    intro P R w i he h1 γ K Q hk
    refine Triple.pre (P' := pts l (.num q) ∗ It r' q k ∗ A ∗ R) (ent_trans he (by cancel)) ?_
    refine set_other (r := r) (i := i) hne (h1.mono (R := pts l (.num q) ∗ It r' q k ∗ A) (by cancel)) ?_
    refine Triple.pre ?_ (hk 0)
    cancel

/-- `algo_find_if` with a variable that holds an iterator of the same kind: the result is delivered (a special case of C62) -/
theorem C66_find_if_partial (pred : V → Bool) (hs : Spans Z S (It r q k ∗ G) r first last i vs.length) (h : Rng P r.ref i vs) :
    Triple True (P ∗ (pts l (.num q) ∗ It r q k ∗ G) ∗ S) (IAlgo.findIf first last (.var l) pred)
      (fun a => ∃ₛ n, ⌜FoundFirst (Algo.At vs fun v => pred v = true) vs.length i (a.1, n)⌝ ∗ P ∗ (pts l (.num q) ∗ It r q n ∗ G) ∗ S) :=
  C62_find_if pred hs h .old

/-- The same call with an iterator of another kind in the variable, whose category is sufficient: the call is not rejected, and the iterator `q` in the variable stays where it was (position `k` of its own container). -/
theorem C66_find_if_violated (hne : r'.kind ≠ r.kind) (hge : r.kind.cate ≤ r'.kind.cate) (pred : V → Bool) (hs : Spans Z S G r first last i vs.length) (h : Rng P r.ref i vs) :
    Triple True (P ∗ (pts l (.num q) ∗ It r' q k ∗ G) ∗ S) (IAlgo.findIf first last (.var l) pred) (fun _ => P ∗ (pts l (.num q) ∗ It r' q k ∗ G) ∗ S) := by
  have h1 : At (pts l (.num q) ∗ It r' q k ∗ G) r first i := hs.fst.mono (R := pts l (.num q) ∗ It r' q k) (by cancel)
  have h2 : At (pts l (.num q) ∗ It r' q k ∗ G) r last (i + vs.length) := hs.lst.mono (R := pts l (.num q) ∗ It r' q k) (by cancel)
  refine Triple.post (lift_found (B := fun _ => pts l (.num q) ∗ It r' q k ∗ G) (findIf_ref hs.ok (Nat.le_add_right ..) hs.le h1 h2 (OutOk.other hne hge)) (fun _ _ h => h.1) (C47_find_if pred h)) fun a => ?_
  exact ent_ex_left fun n => ent_pure_left fun _ => ent_refl _

/-- `algo_copy` with a variable that holds an iterator of another kind: the elements are copied, the position after the last one is not delivered. -/
theorem C66_copy_violated (hne : r'.kind ≠ r2.kind) (hge : r2.kind.cate ≤ r'.kind.cate) (hs : Spans Z S G r first last i vs.length) (h : Rng P r.ref i vs)
    (hd : Stands Z S G r2 dFirst j us.length) (hm : r2.kind.type < 7) (hl : vs.length ≤ us.length) (hlow : ∀ q, q ≠ 0 → 2 ≤ low q) :
    Triple True (P ∗ seg r2.ref j us ∗ (pts l (.num q) ∗ It r' q k ∗ G) ∗ S) (IAlgo.copy low first last dFirst (.var l))
      (fun a => ⌜a.1 = vs.length⌝ ∗ P ∗ seg r2.ref j (over us vs) ∗ (pts l (.num q) ∗ It r' q k ∗ G) ∗ S) := by
  have h1 : At (pts l (.num q) ∗ It r' q k ∗ G) r first i := hs.fst.mono (R := pts l (.num q) ∗ It r' q k) (by cancel)
  have h2 : At (pts l (.num q) ∗ It r' q k ∗ G) r last (i + vs.length) := hs.lst.mono (R := pts l (.num q) ∗ It r' q k) (by cancel)
  have h3 : At (pts l (.num q) ∗ It r' q k ∗ G) r2 dFirst j := hd.at_.mono (R := pts l (.num q) ∗ It r' q k) (by cancel)
  have := lift_exact (B := fun _ => pts l (.num q) ∗ It r' q k ∗ G) (copy_ref hs.ok (Nat.le_add_right ..) hs.le h1 h2 hd.ok hm h3 (by have := hd.le; omega) hlow (OutOk.other hne hge)) (fun _ _ h => h.1) (C48_copy h hl)
  simpa only [sep_assoc] using this

/-- from every memory with `P` the program ends in a failed assertion -/
def Aborts (P : HProp V) (m : M V α) : Prop := ∀ s : Mem V, P s.cells → m s = some (.error .abort)

/-- The opposite mistake: `algo_copy` with an iterator of the right kind in the variable is rejected if the bits of its address that are taken for a category are small. -/
theorem C66_copy_rejected_violated (hs : Spans Z S G r first last i vs.length) (hd : Stands Z S G r2 dFirst j us.length) (hlow : low q < 2) :
    Aborts (pts l (.num q) ∗ It r2 q k ∗ G ∗ F) (IAlgo.copy low first last dFirst (.var l)) := by
  have ab : ∀ {P : HProp V} {α β : Type} {m : M V α} {f : α → M V β}, Triple False P m (fun _ => P) → (∀ a, Aborts P (f a)) → Aborts P (m >>= f) := by
    intro P α β m f ht hk s hp
    obtain ⟨a, s', e1, _, e3⟩ := ht.run (F := emp) (s := s) (fun h => h.elim) (by rw [sep_emp]; exact hp)
    rw [bind_ok e1]
    rw [sep_emp] at e3
    exact hk a s' e3
  have al : ∀ {P : HProp V} {r : Src V} {x i : Nat}, At P r x i → Triple False P (IAlgo.atLeast x 2) (fun _ => P) := by
    intro P r x i ⟨R, he⟩
    refine Triple.fact (p := x ≠ 0) (fun h hh => isIt_ne (he h hh)) fun hx => ?_
    have h1 := ItAt.of_ent hx he
    unfold IAlgo.atLeast
    rw [if_neg hx]
    refine ldN_reads h1.2.1 ?_
    rw [← bind_pure (cassert _)]
    exact Triple.cassert_spec (by cases r.kind <;> rfl) (Triple.ret (ent_refl _))
  have h1 : At (pts l (.num q) ∗ It r2 q k ∗ G ∗ F) r first i := hs.fst.mono (R := pts l (.num q) ∗ It r2 q k ∗ F) (by cancel)
  have h2 : At (pts l (.num q) ∗ It r2 q k ∗ G ∗ F) r last (i + vs.length) := hs.lst.mono (R := pts l (.num q) ∗ It r2 q k ∗ F) (by cancel)
  have h3 : At (pts l (.num q) ∗ It r2 q k ∗ G ∗ F) r2 dFirst j := hd.at_.mono (R := pts l (.num q) ∗ It r2 q k ∗ F) (by cancel)
  intro s hp
  have hf : first ≠ 0 := by obtain ⟨R, he⟩ := h1; exact isIt_ne (he _ hp)
  have hl : last ≠ 0 := by obtain ⟨R, he⟩ := h2; exact isIt_ne (he _ hp)
  have hdf : dFirst ≠ 0 := by obtain ⟨R, he⟩ := h3; exact isIt_ne (he _ hp)
  have hv : l.1 ≠ 0 := pts_ne_zero hp
  have hq : q ≠ 0 := isIt_ne (F := pts l (.num q) ∗ G ∗ F) ((show _ ⊢ₛ It r2 q k ∗ pts l (.num q) ∗ G ∗ F by cancel) _ hp)
  unfold IAlgo.copy
  simp only [hf, hl, hdf, or_self, ↓reduceIte]
  refine ab (al h1) (fun _ => ab (al h2) fun _ => ab (al h3) fun _ => ?_) s hp
  intro s hp
  unfold Out.lowCheck
  simp only [hv, ↓reduceIte, bind_assoc]
  have ht : Triple False (pts l (.num q) ∗ It r2 q k ∗ G ∗ F) (ldN l) (fun a => ⌜a = q⌝ ∗ pts l (.num q) ∗ It r2 q k ∗ G ∗ F) := by
    rw [← bind_pure (ldN l)]
    steps
    apply Triple.ret
    exact ent_pure_right rfl (ent_refl _)
  obtain ⟨a, s', e1, _, e3⟩ := ht.run (F := emp) (s := s) (fun h => h.elim) (by rw [sep_emp]; exact hp)
  rw [bind_ok e1]
  rw [sep_emp, hpure_sep_apply] at e3
  obtain ⟨rfl, _⟩ := e3
  simp only [hq, ↓reduceIte]
  have : decide (2 ≤ low a) = false := by simp; omega
  rw [this]
  rfl

/-- e.g. a range of a list and a variable that holds an iterator of a vector -/
example : (vecSrc (V := Nat) 1 2 1 3).kind ≠ (listSrc (V := Nat) 10 11 1 [⟨20, 21, 7⟩]).kind ∧ (listSrc (V := Nat) 10 11 1 [⟨20, 21, 7⟩]).kind.cate ≤ (vecSrc (V := Nat) 1 2 1 3).kind.cate := by
  constructor
  · exact fun h => by cases h
  · show 3 ≤ 4
    omega

end CC.IAlgo
