import Verif.Vec.Bugs
/-!
# Self-references in `insert`, destruction of relocated elements, growth
-/
namespace CC.Vec
open CC CC.Tac
variable {V W β α : Type} {nf : Prop} {T : Nat → Ops V} {ty : Nat}
variable {v b n cap : Nat}

theorem fill_one {o : Ops V} {e : ElemSpec nf o W} {R : HProp V} {pos value : Loc} {w : W} (hv0 : value.1 ≠ 0) (hc : CanCopy e R value w) :
    Triple nf (R ∗ ∃ₛ y, pts pos y) (fill o pos 1 value) (fun _ => R ∗ cell e pos w) := by
  rw [fill]
  unfold put
  rw [if_pos hv0]
  call (hc pos)
  intro _
  rw [fill]
  apply Triple.ret
  cancel

/-- insertion behind `X` of a reference that can be read once the elements `Y` have been moved up one place -/
theorem insert_moved {e : ElemSpec nf (T ty) W} {X Y : List W} {value : Loc} {w : W} (hv0 : value.1 ≠ 0)
    (hroom : (X ++ Y).length < cap) (hc : CanCopy e (live e b 1 X ∗ live e b (1 + X.length + 1) Y) value w) :
    Triple nf (isVec e v b cap (X ++ Y)) (insert T v (b, 1 + X.length) value)
      (fun r => ⌜r = (b, 1 + X.length)⌝ ∗ isVec e v b cap (X ++ w :: Y)) := by
  apply vec_facts'; intro hv hcap
  unfold insert insertN
  rw [if_neg (by simp [hv, hv0])]
  have hval : Triple nf (isVec e v b cap (X ++ Y)) (isValidPos v (b, 1 + X.length)) (fun r => ⌜r = true⌝ ∗ isVec e v b cap (X ++ Y)) := by
    unfold isVec; xintro h; call isValidPos_spec; intro r; xsub; cancel; simp
  call hval
  intro r
  xsub
  simp only [Bool.not_true, Bool.false_eq_true, if_false]
  call (insertRoom_spec (e := e) (cap := cap) (ws := X ++ Y) (count := 1) (k := X.length) (by simp) (Or.inr (Or.inr hroom)))
  intro r
  cases r with
  | none =>
    dsimp only
    xintro h
    omega
  | some p =>
    dsimp only
    xintro b' h
    obtain ⟨rfl, h1, _⟩ := h
    have hbb : b' = b := h1 (by omega)
    subst hbb
    have hN : insCap cap (X ++ Y).length 1 = cap := if_neg (by omega)
    rw [hN]
    unfold isVec
    xintro hc'
    call ldFinish
    intro r
    xsub
    apply psub_spec (by simp)
    have hn : 1 + (X ++ Y).length - (1 + X.length) = Y.length := by simp; omega
    rw [hn, live_append]
    have hl : 1 + (X ++ Y).length = 1 + X.length + Y.length := by simp; omega
    have hr : raws (V := V) b' (1 + (X ++ Y).length) (cap - (X ++ Y).length) =
        (raws b' (1 + X.length + Y.length) 1 ∗ raws b' (1 + X.length + Y.length + 1) (cap - ((X ++ Y).length + 1))) := by
      rw [hl, ← raws_append]; congr 1; omega
    rw [hr]
    simp only [padd]
    call (memmove_up (e := e) (b := b') (i := 1 + X.length) (k := 1) (ws := Y) rfl rfl)
    intro _
    call ldTy
    intro r
    xsub
    rw [raws_succ, raws_zero, sep_emp]
    call (fill_one (e := e) (pos := (b', 1 + X.length)) hv0 hc)
    intro _
    call ldFinish
    intro r
    xsub
    call (stFinish (b := b') (m := (X ++ w :: Y).length) (by simp; omega))
    intro _
    apply Triple.ret
    have e1 : 1 + (X ++ w :: Y).length = 1 + X.length + Y.length + 1 := by simp; omega
    have e2 : (X ++ w :: Y).length = (X ++ Y).length + 1 := by simp; omega
    rw [live_append, live_cons, e1, e2]
    cancel

/-- A reference to the vector's own element number `j`, inserted at position `i` with room to spare: an element in front of the position is
copied correctly; for an element behind the position (`i < j`) the element *before* it is copied instead, because the elements are moved
before the reference is read. -/
theorem insert_alias {e : ElemSpec nf (T ty) W} {ws : List W} {i j : Nat} {w : W} (hi : i ≤ ws.length) (hj : j < ws.length) (hij : i ≠ j)
    (hroom : ws.length < cap) (hw : ws[if j < i then j else j - 1]? = some w) :
    Triple nf (isVec e v b cap ws) (do let r ← at_ v j; let p ← iterAt v i; insert T v p r)
      (fun r => ⌜r = (b, 1 + i)⌝ ∗ isVec e v b cap (ws.take i ++ w :: ws.drop i)) := by
  call (at_spec (v := v))
  intro r
  xsub
  call (iterAt_spec (v := v))
  intro r
  xsub
  apply Triple.fact (p := b ≠ 0)
  · rintro h hh rfl
    rw [← sep_emp (isVec e v 0 cap ws)] at hh
    have := vec_cap0 hh
    omega
  intro hb
  obtain ⟨X, Y, rfl, rfl⟩ : ∃ X Y, ws = X ++ Y ∧ X.length = i := ⟨ws.take i, ws.drop i, by simp, by simp; omega⟩
  rw [List.take_left, List.drop_left]
  refine insert_moved hb hroom ?_
  split at hw
  · rename_i hlt
    rw [List.getElem?_append_left hlt] at hw
    exact (CanCopy.live hw).frame
  · rename_i hlt
    have hlt : X.length ≤ j - 1 := by omega
    rw [List.getElem?_append_right hlt] at hw
    have := (CanCopy.live (e := e) (b := b) (i := 1 + X.length + 1) hw).frame' (R := live e b 1 X)
    rw [show 1 + X.length + 1 + (j - 1 - X.length) = 1 + j by omega] at this
    exact this

/-- shrink_to_fit with spare capacity, for any element type: the bits move to the new storage, the elements are destroyed.
`p` is any block owned by the elements. -/
theorem shrinkToFit_bits {e : ElemSpec True (T ty) W} {ws : List W} {xs : List (Val V)} {p m : Nat} {R : HProp V} (hlen : xs.length = ws.length) (hne : ws ≠ [])
    (hspare : ws.length < cap) (ho : owns e xs ws ⊢ₛ blk p m ∗ R) :
    Triple True (vhdr v b ws.length cap ty ∗ arr b 1 xs ∗ owns e xs ws ∗ raws b (1 + ws.length) (cap - ws.length)) (shrinkToFit T v)
      (fun _ => ∃ₛ b', ⌜b' ≠ 0 ∧ b' ≠ p ∧ v ≠ p⌝ ∗ vhdr v b' ws.length ws.length ty ∗ arr b' 1 xs) := by
  apply hdr_fact; intro hv
  apply Triple.fact (p := v ≠ p)
  · intro h hh
    have hh2 := sep_mono (ent_refl _) (sep_mono (ent_refl _) (sep_mono ho (ent_refl _))) _ hh
    unfold vhdr at hh2
    have := loc_ne_of (l₁ := (v, 0)) (l₂ := (p, 0)) hh2 (by cancel)
    intro h; exact this (by rw [h])
  intro hvp
  unfold shrinkToFit
  rw [if_neg hv]
  call eos_spec
  intro r
  xsub
  call end_spec
  intro r
  xsub
  rw [if_neg (by simp; omega)]
  call ldFinish
  intro r
  xsub
  call ldStart
  intro r
  xsub
  apply psub_spec (by omega)
  rw [show 1 + ws.length - 1 = ws.length by omega]
  rw [if_neg (by simpa using hne)]
  apply mallocO_spec
  · intro h; exact absurd trivial h
  intro a ha
  rw [if_neg ha]
  apply Triple.fact (p := a ≠ p)
  · intro h hh
    have he : (blk a ws.length ∗ raws a 1 ws.length ∗ vhdr v b ws.length cap ty ∗ arr b 1 xs ∗ owns e xs ws ∗ raws b (1 + ws.length) (cap - ws.length)) ⊢ₛ
        (blk a ws.length ∗ blk p m ∗ R ∗ raws a 1 ws.length ∗ vhdr v b ws.length cap ty ∗ arr b 1 xs ∗ raws b (1 + ws.length) (cap - ws.length)) := by
      refine ent_trans (Q := owns e xs ws ∗ (blk a ws.length ∗ raws a 1 ws.length ∗ vhdr v b ws.length cap ty ∗ arr b 1 xs ∗ raws b (1 + ws.length) (cap - ws.length))) (by cancel) ?_
      refine ent_trans (sep_mono ho (ent_refl _)) ?_
      cancel
    have := loc_ne_of (l₁ := (a, 0)) (l₂ := (p, 0)) (he _ (ent_trans (by cancel) (ent_refl _) h hh)) (by cancel)
    intro h; exact this (by rw [h])
  intro hap
  refine Triple.pre (P' := raws a 1 ws.length ∗ blk a ws.length ∗ vhdr v b ws.length cap ty ∗ arr b 1 xs ∗ owns e xs ws ∗ raws b (1 + ws.length) (cap - ws.length))
    (by cancel) ?_
  refine Triple.pre (sep_mono raws_to_arr (ent_refl _)) ?_
  xintro ys hy
  call (memcpy_arr (b := b) (i := 1) (c := a) (j := 1) (n := ws.length) (xs := xs) (ys := ys) (by omega) (by omega))
  intro _
  call ldTy
  intro r
  xsub
  call vbegin_spec
  intro r
  xsub
  call vend_spec
  intro r
  xsub
  refine Triple.pre (P' := live e b 1 ws ∗ (arr a 1 xs ∗ blk a ws.length ∗ vhdr v b ws.length cap ty ∗ raws b (1 + ws.length) (cap - ws.length))) ?_ ?_
  · refine ent_trans ?_ (sep_mono (arr_to_live (xs := xs)) (ent_refl _))
    cancel
  call (destroyLoop_spec (e := e) (b := b) (i := 1) (ws := ws) rfl)
  intro _
  call ldStart
  intro r
  xsub
  unfold vhdr
  refine Triple.pre (P' := (buf b cap ∗ raws b 1 cap) ∗ arr a 1 xs ∗ blk a ws.length ∗
      (blk v 4 ∗ pts (v, 1) (.ptr b 1) ∗ pts (v, 2) (.ptr b (1 + ws.length)) ∗ pts (v, 3) (.ptr b (1 + cap)) ∗ fld v 4 ty)) ?_ ?_
  · have : raws (V := V) b 1 cap = (raws b 1 ws.length ∗ raws b (1 + ws.length) (cap - ws.length)) := by
      rw [← raws_append]; congr 1; omega
    rw [this]
    cancel
  call (freeStorage_spec (b := b) (cap := cap))
  intro _
  steps
  apply Triple.ret
  xexists a
  rw [buf_ne ha]
  simp only [padd]
  cancel

theorem Bad.destroyV {P : HProp V} {l : Loc} (h : ∀ c, P c → c l = none) : Bad P (destroyV l : M V Unit) := by
  intro s ho hs
  unfold CC.destroyV
  apply bind_error
  rcases load_cases s l with h1 | ⟨x, h1⟩
  · exact h1
  · simp [load, Bind.bind, StateT.bind, ExceptT.bind, ExceptT.mk, Option.bind, ExceptT.bindCont, h _ hs,
      get, getThe, MonadStateOf.get, StateT.get, Pure.pure, ExceptT.pure, ub, fault]

/-- a vector of resource-owning elements: after shrink_to_fit the first element's resources are gone although the vector still refers to them; destroying
the vector destroys the element a second time -/
theorem shrink_destroy_bad {t : Ty V} {w : V} {ws : List V} (hspare : (w :: ws).length < cap) :
    Bad (isVec (T := fun _ => boxOps t) (ty := ty) (boxSpec t) v b cap (w :: ws)) (do
      shrinkToFit (fun _ => boxOps t) v
      destroy (fun _ => boxOps t) v) := by
  generalize hN : (w :: ws).length = N at hspare
  have hN0 : 0 < N := by rw [← hN]; simp
  refine Bad.pre (P' := (∃ₛ xs, ⌜xs.length = (w :: ws).length⌝ ∗ arr b 1 xs ∗ owns (boxSpec t) xs (w :: ws)) ∗
    (vhdr v b (w :: ws).length cap ty ∗ raws b (1 + (w :: ws).length) (cap - (w :: ws).length))) ?_ ?_
  · unfold isVec
    xintro _
    refine ent_trans ?_ (sep_mono live_to_arr (ent_refl _))
    cancel
  refine Bad.ex fun xs => ?_
  rw [sep_assoc]
  apply Bad.pure_left
  intro hlen
  obtain ⟨x, xs, rfl⟩ : ∃ x xs', xs = x :: xs' := by
    cases xs with
    | nil => simp at hlen
    | cons x xs => exact ⟨x, xs, rfl⟩
  refine Bad.pre (P' := (∃ₛ p, ⌜x = .num p⌝ ∗ blk p 1 ∗ pts (p, 1) (.obj (some w))) ∗ arr b 1 (x :: xs) ∗ owns (boxSpec t) xs ws ∗
    (vhdr v b (w :: ws).length cap ty ∗ raws b (1 + (w :: ws).length) (cap - (w :: ws).length))) ?_ ?_
  · rw [owns]
    show _ ⊢ₛ (boxSpec t).own x w ∗ _
    cancel
  refine Bad.ex fun p => ?_
  rw [sep_assoc]
  apply Bad.pure_left
  rintro rfl
  refine Bad.pre (P' := (vhdr v b (w :: ws).length cap ty ∗ arr b 1 (.num p :: xs) ∗ owns (boxSpec t) (.num p :: xs) (w :: ws) ∗
    raws b (1 + (w :: ws).length) (cap - (w :: ws).length)) ∗ emp) ?_ ?_
  · rw [owns]
    refine ent_trans (Q := (blk p 1 ∗ pts (p, 1) (.obj (some w))) ∗ (arr b 1 (.num p :: xs) ∗ owns (boxSpec t) xs ws ∗
      (vhdr v b (w :: ws).length cap ty ∗ raws b (1 + (w :: ws).length) (cap - (w :: ws).length)))) (by cancel) ?_
    have : (blk p 1 ∗ pts (p, 1) (.obj (some w))) ⊢ₛ (boxSpec t).own (.num p) w := by
      show _ ⊢ₛ (∃ₛ q, ⌜(Val.num p : Val V) = .num q⌝ ∗ blk q 1 ∗ pts (q, 1) (.obj (some w)))
      xexists p
      cancel
    refine ent_trans (sep_mono this (ent_refl _)) ?_
    cancel
  have ho : owns (boxSpec t) (.num p :: xs) (w :: ws) ⊢ₛ blk p 1 ∗ (pts (p, 1) (.obj (some w)) ∗ owns (boxSpec t) xs ws) := by
    rw [owns]
    show (∃ₛ q, ⌜(Val.num p : Val V) = .num q⌝ ∗ blk q 1 ∗ pts (q, 1) (.obj (some w))) ∗ _ ⊢ₛ _
    xintro q h
    cases h
    cancel
  refine Bad.bind (shrinkToFit_bits (T := fun _ => boxOps t) (e := boxSpec t) hlen (by simp) (by omega) ho) ?_
  intro _
  refine Bad.ex fun b' => ?_
  rw [sep_assoc]
  apply Bad.pure_left
  rintro ⟨hb', hbp, hvp⟩
  rw [sep_emp, hN]
  apply Bad.fact (p := v ≠ 0) (fun h hh => hdr_ne hh)
  intro hv
  unfold destroy
  rw [if_neg hv]
  apply Bad.head
  unfold clear
  refine Bad.bind empty_spec ?_
  intro r
  rw [sep_assoc]
  apply Bad.pure_left
  rintro rfl
  rw [if_neg (by simp; omega)]
  refine Bad.bind ldTy ?_
  intro r
  rw [sep_assoc]
  apply Bad.pure_left
  intro _
  refine Bad.bind begin_spec ?_
  intro r
  rw [sep_assoc]
  apply Bad.pure_left
  rintro rfl
  refine Bad.bind end_spec ?_
  intro r
  rw [sep_assoc]
  apply Bad.pure_left
  rintro rfl
  apply Bad.head
  rw [destroyLoop, if_pos (by simp; omega)]
  apply Bad.head
  unfold boxOps
  dsimp only
  refine Bad.pre (P' := pts (b', 1) (.num p) ∗ (vhdr v b' N N ty ∗ arr b' (1+1) xs)) (by rw [arr]; cancel) ?_
  have hld : Triple True (pts (b', 1) (.num p)) (ldN (b', 1)) (fun r => ⌜r = p⌝ ∗ pts (V := V) (b', 1) (.num p)) := by
    rw [← bind_pure (ldN (b', 1))]
    step
    apply Triple.ret
    cancel
  refine Bad.bind hld ?_
  intro r
  rw [sep_assoc]
  apply Bad.pure_left
  rintro rfl
  apply Bad.head
  apply Bad.destroyV
  unfold vhdr
  rw [buf_ne hb']
  have h1 : ∀ i, ((r, 1) : Loc) ≠ (v, i) := fun i h => hvp (by cases h; rfl)
  have h2 : ∀ i, ((r, 1) : Loc) ≠ (b', i) := fun i h => hbp (by cases h; rfl)
  exact NotIn.sep (.pts (h2 _)) (.sep (.sep (.pts (h1 _)) (.sep (.pts (h1 _)) (.sep (.pts (h1 _)) (.sep (.pts (h1 _)) (.sep (.pts (h1 _)) (.pts (h2 _))))))) (.arr (Or.inl (Ne.symm hbp))))

/-! ## Growth -/

/-- a client that pushes `n` times and records how often the capacity changed and how many elements were relocated on these occasions -/
def pushCount (T : Nat → Ops V) (v : Addr) (a : Loc) : Nat → M V (Nat × Nat)
  | 0 => pure (0, 0)
  | n+1 => do
    let s ← size v
    let c ← capacity v
    pushBack T v a
    let c' ← capacity v
    let r ← pushCount T v a n
    if c' = c then pure r else pure (r.1 + 1, r.2 + s)

theorem newCap_one (cap : Nat) : newCap cap 1 cap = if cap = 0 then 1 else 2 * cap := by
  unfold newCap
  split <;> split <;> omega

/-- What `n` pushes cost: `r` capacity changes and `m` relocated elements, from a vector with `s` elements and capacity `cap`.  Every change doubles the capacity (from an
unallocated vector: first to 1) and the last one happened at a size below the final one. -/
def GrowthOK (cap s n r m : Nat) : Prop :=
  (0 < cap → m + cap = cap * 2 ^ r ∧ (r ≠ 0 → cap * 2 ^ (r - 1) < s + n)) ∧
  (cap = 0 → (r = 0 → m = 0) ∧ (r ≠ 0 → m + 1 = 2 ^ (r - 1)) ∧ (2 ≤ r → 2 ^ (r - 2) < s + n) ∧ (r = 1 → 0 < s + n))

theorem GrowthOK.logarithmic {cap s n r m : Nat} (h : GrowthOK cap s n r m) (hr : r ≠ 0) : 2 ^ r ≤ 4 * (s + n) := by
  obtain ⟨k, rfl⟩ : ∃ k, r = k + 1 := ⟨r - 1, by omega⟩
  rcases Nat.eq_zero_or_pos cap with hc | hc
  · have h := h.2 hc
    cases k with
    | zero => have := h.2.2.2 rfl; simp; omega
    | succ k => have := h.2.2.1 (by omega); simp only [Nat.pow_succ] at *; simp at this; omega
  · have h := (h.1 hc).2 hr
    rw [Nat.add_sub_cancel] at h
    have : 1 * 2 ^ k ≤ cap * 2 ^ k := Nat.mul_le_mul_right _ hc
    rw [Nat.pow_succ]; omega

theorem GrowthOK.linear {cap s n r m : Nat} (h : GrowthOK cap s n r m) : m ≤ 2 * (s + n) := by
  rcases Nat.eq_zero_or_pos cap with hc | hc
  · have h := h.2 hc
    match r with
    | 0 => have := h.1 rfl; omega
    | 1 => have := h.2.1 (by omega); simp at this; omega
    | k+2 => have h1 := h.2.1 (by omega); have h2 := h.2.2.1 (by omega); simp [Nat.pow_succ] at h1 h2; omega
  · have h := h.1 hc
    match r with
    | 0 => simp at h; omega
    | k+1 =>
      have h1 := h.1
      have h2 := h.2 (by omega)
      rw [Nat.add_sub_cancel] at h2
      rw [Nat.pow_succ, ← Nat.mul_assoc] at h1
      omega

theorem GrowthOK.step {cap n r m : Nat} (h : GrowthOK (if cap = 0 then 1 else 2 * cap) (cap + 1) n r m) : GrowthOK cap cap (n+1) (r+1) (m + cap) := by
  unfold GrowthOK at h ⊢
  rcases Nat.eq_zero_or_pos cap with hc | hc
  · subst hc
    simp only [if_true] at h
    have h := h.1 (by omega)
    refine ⟨by omega, fun _ => ⟨by omega, fun _ => ?_, fun hr => ?_, by omega⟩⟩
    · have := h.1; simp at this ⊢; omega
    · have := h.2 (by omega)
      rw [show r + 1 - 2 = r - 1 by omega]; omega
  · rw [if_neg (by omega)] at h
    have h := h.1 (by omega)
    refine ⟨fun _ => ⟨?_, fun _ => ?_⟩, by omega⟩
    · have h1 := h.1
      rw [Nat.pow_succ, ← Nat.mul_assoc, Nat.mul_comm (cap * 2 ^ r) 2, ← Nat.mul_assoc]; omega
    · rw [Nat.add_sub_cancel]
      cases r with
      | zero => simp
      | succ r =>
        have h2 := h.2 (by omega)
        rw [Nat.add_sub_cancel] at h2
        rw [Nat.pow_succ, ← Nat.mul_assoc, Nat.mul_comm (cap * 2 ^ r) 2, ← Nat.mul_assoc]; omega

theorem pushCount_spec {e : ElemSpec True (T ty) W} (hp : e.Plain) {ws : List W} {a : Loc} {w : W} {n : Nat} (ha : a.1 ≠ 0) :
    Triple True (isVec e v b cap ws ∗ cell e a w) (pushCount T v a n)
      (fun r => ⌜GrowthOK cap ws.length n r.1 r.2⌝ ∗
        ∃ₛ b' cap', isVec e v b' cap' (ws ++ List.replicate n w) ∗ cell e a w) := by
  induction n generalizing b cap ws with
  | zero =>
    rw [pushCount]
    apply Triple.ret
    xexists b, cap
    simp only [List.replicate_zero, List.append_nil]
    cancel
    simp [GrowthOK]
  | succ n ih =>
    rw [pushCount]
    apply vec_facts; intro hv hcap
    call (vsize_spec (v := v))
    intro s
    xsub
    call (vcapacity_spec (v := v))
    intro c
    xsub
    call (pushBack_spec (e := e) (v := v) (b := b) (cap := cap) (ws := ws) (value := a) (w := w) ha (Or.inl hp))
    intro _
    xintro b' cap' ws' h
    obtain ⟨rfl, h2, _⟩ := h.resolve_right (fun h => h.1 trivial)
    rw [newCap_one] at h2
    call (vcapacity_spec (v := v))
    intro c
    xsub
    call (ih (b := b') (cap := cap') (ws := ws ++ [w]))
    intro r
    xintro h b2 cap2
    have hw : (ws ++ [w]) ++ List.replicate n w = ws ++ List.replicate (n+1) w := by simp [List.replicate_succ]
    rw [hw]
    obtain ⟨k, m⟩ := r
    rw [show (ws ++ [w]).length = ws.length + 1 by simp] at h
    dsimp only at h ⊢
    by_cases hc : cap' = cap
    · rw [if_pos hc]
      apply Triple.ret
      xexists b2, cap2
      cancel
      dsimp only
      rw [hc] at h
      unfold GrowthOK at h ⊢
      rw [show ws.length + (n + 1) = ws.length + 1 + n by omega]
      exact h
    · rw [if_neg hc]
      apply Triple.ret
      xexists b2, cap2
      cancel
      dsimp only
      have hfull : ws.length = cap := by
        by_cases h : ws.length = cap
        · exact h
        · rw [if_neg h] at h2; exact absurd h2 hc
      rw [if_pos hfull] at h2
      rw [h2] at h
      rw [hfull] at h ⊢
      exact h.step

end CC.Vec
