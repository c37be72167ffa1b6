import Verif.Deq.Spec3
import Verif.Vec.Bugs2
/-!
# Deques: references to own elements, destruction of relocated elements
-/
namespace CC.Deq
open CC CC.Tac
open CC.Vec (nullP freeStorage buf buf_zero buf_ne arg arg_null arg_cell psub_spec psub_spec' pminus_spec pminus_spec' freeStorage_spec
  CanCopy live_snoc raws_pos newCap)
variable {V W α β : Type} {nf : Prop} {T : Nat → Ops V} {ty v b lo hi : Nat} {ws : List W}

theorem fill_one {o : Ops V} {e : ElemSpec nf o W} {R : HProp V} {pos value : Loc} {w : W} (hv0 : value.1 ≠ 0) (hc : CanCopy e R value w) :
    Triple nf (R ∗ ∃ₛ y, pts pos y) (fill o pos 1 value) (fun _ => R ∗ cell e pos w) := by
  rw [fill]
  unfold put
  rw [if_pos hv0]
  call (hc pos)
  intro _
  rw [fill]
  apply Triple.ret
  cancel

/-- insertion behind `X` with room at the end: the reference is read when the elements `Y` have been moved up one place -/
theorem insert_end {e : ElemSpec nf (T ty) W} {X Y : List W} {value : Loc} {w : W} (hv0 : value.1 ≠ 0)
    (hroom : 0 < hi) (hc : CanCopy e (live e b (1 + lo) X ∗ live e b (1 + lo + X.length + 1) Y) value w) :
    Triple nf (isDeq e v b lo hi (X ++ Y)) (insert T v (b, 1 + lo + X.length) value)
      (fun r => ⌜r = (b, 1 + lo + X.length)⌝ ∗ isDeq e v b lo (hi - 1) (X ++ w :: Y)) := by
  apply deq_fact'; intro hv
  unfold insert insertN
  rw [if_neg (by simp [hv, hv0])]
  call (lift (e := e) (isValidPos_spec (v := v)))
  intro r
  xsub
  rw [if_neg (by simp <;> omega)]
  call (insertRoom_spec (e := e) (v := v) (b := b) (lo := lo) (hi := hi) (ws := X ++ Y) (count := 1) (k := X.length) (by simp) (Or.inr (Or.inr (by omega))))
  intro r
  cases r with
  | none =>
    dsimp only
    xintro h
    omega
  | some p =>
    dsimp only
    xintro b' lo' hi' h
    obtain ⟨rfl, _, h1⟩ := h
    obtain ⟨rfl, rfl, rfl⟩ := h1.1 (by omega)
    unfold insertAux
    step
    · simpa using hv
    unfold isDeq
    call ldTy
    intro r
    xsub
    call availableEnd_spec
    intro r
    xsub
    rw [if_pos (by omega)]
    have hlen : (X ++ w :: Y).length = X.length + 1 + Y.length := by simp; omega
    have hlen2 : (X ++ Y).length = X.length + Y.length := by simp
    rw [live_append, hlen2]
    call ldFinish
    intro r
    xsub
    apply psub_spec (by omega)
    rw [show 1 + lo' + (X.length + Y.length) - (1 + lo' + X.length) = Y.length by omega]
    obtain ⟨hi, rfl⟩ : ∃ k, hi' = 1 + k := ⟨hi' - 1, by omega⟩
    rw [raws_append, ← Nat.add_assoc (1 + lo')]
    simp only [padd]
    call (memmove_up (e := e) (b := b') (i := 1 + lo' + X.length) (k := 1) (ws := Y) rfl rfl)
    intro _
    rw [raws_succ, raws_zero, sep_emp]
    call (fill_one (e := e) (pos := (b', 1 + lo' + X.length)) hv0 hc)
    intro _
    call ldFinish
    intro r
    xsub
    call (stFinish (b := b') (lo := lo') (n := X.length + Y.length) (hi := 1 + hi) (n' := X.length + 1 + Y.length) (hi' := hi) (by simp; omega) (by omega))
    intro _
    apply Triple.ret
    rw [hlen, live_append, live_cons, show 1 + hi - 1 = hi by omega]
    have e1 : 1 + lo' + X.length + Y.length + 1 = 1 + lo' + (X.length + 1 + Y.length) := by omega
    rw [e1]
    cancel

/-- insertion behind `X` with room at the front only: the reference is read when the elements `X` have been moved down one place -/
theorem insert_start {e : ElemSpec nf (T ty) W} {X Y : List W} {value : Loc} {w : W} (hv0 : value.1 ≠ 0)
    (hroom : 0 < lo) (hc : CanCopy e (live e b lo X ∗ live e b (1 + lo + X.length) Y) value w) :
    Triple nf (isDeq e v b lo 0 (X ++ Y)) (insert T v (b, 1 + lo + X.length) value)
      (fun r => ⌜r = (b, lo + X.length)⌝ ∗ isDeq e v b (lo - 1) 0 (X ++ w :: Y)) := by
  apply deq_fact'; intro hv
  unfold insert insertN
  rw [if_neg (by simp [hv, hv0])]
  call (lift (e := e) (isValidPos_spec (v := v)))
  intro r
  xsub
  rw [if_neg (by simp <;> omega)]
  call (insertRoom_spec (e := e) (v := v) (b := b) (lo := lo) (hi := 0) (ws := X ++ Y) (count := 1) (k := X.length) (by simp) (Or.inr (Or.inr (by omega))))
  intro r
  cases r with
  | none =>
    dsimp only
    xintro h
    omega
  | some p =>
    dsimp only
    xintro b' lo' hi' h
    obtain ⟨rfl, _, h1⟩ := h
    obtain ⟨rfl, rfl, rfl⟩ := h1.1 (by omega)
    unfold insertAux
    step
    · simpa using hv
    unfold isDeq
    call ldTy
    intro r
    xsub
    call availableEnd_spec
    intro r
    xsub
    rw [if_neg (by omega)]
    call availableStart_spec
    intro r
    xsub
    rw [if_pos (by omega)]
    have hlen : (X ++ w :: Y).length = X.length + 1 + Y.length := by simp; omega
    have hlen2 : (X ++ Y).length = X.length + Y.length := by simp
    rw [live_append, hlen2]
    call ldStart
    intro r
    xsub
    apply psub_spec (by omega)
    rw [show 1 + lo' + X.length - (1 + lo') = X.length by omega]
    obtain ⟨lo, rfl⟩ : ∃ k, lo' = k + 1 := ⟨lo' - 1, by omega⟩
    apply pminus_spec (by omega)
    rw [show 1 + (lo + 1) - 1 = 1 + lo by omega, raws_append]
    call (memmove_down (e := e) (b := b') (i := 1 + lo) (j := 1 + (lo + 1)) (k := 1) (ws := X) rfl (by omega))
    intro _
    call ldStart
    intro r
    xsub
    apply pminus_spec (by omega)
    call (stStart (b := b') (lo := lo + 1) (n := X.length + Y.length) (lo' := lo) (n' := X.length + 1 + Y.length) (by simp; omega) (by omega))
    intro _
    apply pminus_spec (by omega)
    rw [show 1 + (lo + 1) + X.length - 1 = 1 + lo + X.length by omega, raws_succ, raws_zero, sep_emp]
    rw [show lo + 1 = 1 + lo by omega] at hc
    rw [show lo + 1 = 1 + lo by omega]
    call (fill_one (e := e) (pos := (b', 1 + lo + X.length)) hv0 hc)
    intro _
    apply Triple.ret
    rw [hlen, live_append, live_cons, show 1 + lo - 1 = lo by omega]
    have e1 : 1 + lo + X.length + 1 = 1 + (1 + lo) + X.length := by omega
    have e2 : 1 + lo + (X.length + 1 + Y.length) = 1 + (1 + lo) + (X.length + Y.length) := by omega
    rw [e1, e2]
    cancel

theorem deq_b0 {e : ElemSpec nf (T ty) W} {m : M V α} {Q : α → HProp V} (hne : 0 < lo + ws.length + hi) (h : b ≠ 0 → Triple nf (isDeq e v b lo hi ws) m Q) :
    Triple nf (isDeq e v b lo hi ws) m Q := by
  apply Triple.fact (p := b ≠ 0) _ h
  rintro h hh rfl
  rw [← sep_emp (isDeq e v 0 lo hi ws)] at hh
  have := deq_null hh
  omega

/-- inserting a reference to the deque's own element number `j` at position `i`, with room at the end -/
theorem insert_alias_end {e : ElemSpec nf (T ty) W} {i j : Nat} {w : W} (hi' : i ≤ ws.length) (hj : j < ws.length) (hij : i ≠ j)
    (hroom : 0 < hi) (hw : ws[if j < i then j else j - 1]? = some w) :
    Triple nf (isDeq e v b lo hi ws) (do let r ← at_ v j; insert T v (b, 1 + lo + i) r)
      (fun r => ⌜r = (b, 1 + lo + i)⌝ ∗ isDeq e v b lo (hi - 1) (ws.take i ++ w :: ws.drop i)) := by
  apply deq_b0 (by omega); intro hb
  call (lift (e := e) (at_spec (v := v)))
  intro r
  xsub
  obtain ⟨X, Y, rfl, rfl⟩ : ∃ X Y, ws = X ++ Y ∧ X.length = i := ⟨ws.take i, ws.drop i, by simp, by simp; omega⟩
  rw [List.take_left, List.drop_left]
  refine insert_end hb hroom ?_
  split at hw
  · rename_i hlt
    rw [List.getElem?_append_left hlt] at hw
    exact (CanCopy.live hw).frame
  · rename_i hlt
    have hlt : X.length ≤ j - 1 := by omega
    rw [List.getElem?_append_right hlt] at hw
    have := (CanCopy.live (e := e) (b := b) (i := 1 + lo + X.length + 1) hw).frame' (R := live e b (1 + lo) X)
    rw [show 1 + lo + X.length + 1 + (j - 1 - X.length) = 1 + lo + j by omega] at this
    exact this

/-- … with room at the front only -/
theorem insert_alias_start {e : ElemSpec nf (T ty) W} {i j : Nat} {w : W} (hi' : i ≤ ws.length) (hj : j < ws.length) (hij : i ≠ j + 1)
    (hroom : 0 < lo) (hw : ws[if j < i then j + 1 else j]? = some w) :
    Triple nf (isDeq e v b lo 0 ws) (do let r ← at_ v j; insert T v (b, 1 + lo + i) r)
      (fun r => ⌜r = (b, lo + i)⌝ ∗ isDeq e v b (lo - 1) 0 (ws.take i ++ w :: ws.drop i)) := by
  apply deq_b0 (by omega); intro hb
  call (lift (e := e) (at_spec (v := v)))
  intro r
  xsub
  obtain ⟨X, Y, rfl, rfl⟩ : ∃ X Y, ws = X ++ Y ∧ X.length = i := ⟨ws.take i, ws.drop i, by simp, by simp; omega⟩
  rw [List.take_left, List.drop_left]
  refine insert_start hb hroom ?_
  split at hw
  · rename_i hlt
    rw [List.getElem?_append_left (by omega)] at hw
    have := (CanCopy.live (e := e) (b := b) (i := lo) hw).frame (R := live e b (1 + lo + X.length) Y)
    rw [show lo + (j + 1) = 1 + lo + j by omega] at this
    exact this
  · rename_i hlt
    have hlt : X.length ≤ j := by omega
    rw [List.getElem?_append_right hlt] at hw
    have := (CanCopy.live (e := e) (b := b) (i := 1 + lo + X.length) hw).frame' (R := live e b lo X)
    rw [show 1 + lo + X.length + (j - X.length) = 1 + lo + j by omega] at this
    exact this

/-- push_back of an own element, with room at the end -/
theorem pushBack_alias {e : ElemSpec nf (T ty) W} {j : Nat} {w : W} (hw : ws[j]? = some w) (hroom : 0 < hi) :
    Triple nf (isDeq e v b lo hi ws) (do let r ← at_ v j; pushBack T v r) (fun _ => isDeq e v b lo (hi - 1) (ws ++ [w])) := by
  have hj : j < ws.length := (List.getElem?_eq_some_iff.1 hw).1
  apply deq_b0 (by omega); intro hb
  apply deq_fact'; intro hv
  call (lift (e := e) (at_spec (v := v)))
  intro r
  xsub
  unfold pushBack
  rw [if_neg (by simp [hv, hb])]
  call (lift (e := e) (ldFinish (v := v)))
  intro r
  xsub
  call (lift (e := e) (ldEos (v := v)))
  intro r
  xsub
  rw [if_neg (by simp; omega), pure_bind]
  simp only [Bool.false_eq_true, ↓reduceIte]
  have := pushBack_room (e := e) (v := v) (R := emp) (b := b) (lo := lo) (hi := hi) (ws := ws) (value := (b, 1 + lo + j)) hb hroom (CanCopy.live hw).frame
  rw [sep_emp] at this
  refine Triple.post this fun _ => ?_
  cancel

/-- push_front of an own element, with room at the front -/
theorem pushFront_alias {e : ElemSpec nf (T ty) W} {j : Nat} {w : W} (hw : ws[j]? = some w) (hroom : 0 < lo) :
    Triple nf (isDeq e v b lo hi ws) (do let r ← at_ v j; pushFront T v r) (fun _ => isDeq e v b (lo - 1) hi (w :: ws)) := by
  have hj : j < ws.length := (List.getElem?_eq_some_iff.1 hw).1
  apply deq_b0 (by omega); intro hb
  apply deq_fact'; intro hv
  call (lift (e := e) (at_spec (v := v)))
  intro r
  xsub
  unfold pushFront
  rw [if_neg (by simp [hv, hb])]
  call (lift (e := e) (ldStart (v := v)))
  intro r
  xsub
  call (lift (e := e) (ldSos (v := v)))
  intro r
  xsub
  rw [if_neg (by simp; omega), pure_bind]
  simp only [Bool.false_eq_true, ↓reduceIte]
  have := pushFront_room (e := e) (v := v) (R := emp) (b := b) (lo := lo) (hi := hi) (ws := ws) (value := (b, 1 + lo + j)) hb hroom (CanCopy.live hw).frame
  rw [sep_emp] at this
  refine Triple.post this fun _ => ?_
  cancel

/-! ## references that dangle after a reallocation -/

theorem lift_bad {e : ElemSpec True (T ty) W} {F : HProp V} {m : M V α} {x : α} {K : α → M V β}
    (h : Triple True (dhdr v b lo ws.length hi ty) m (fun r => ⌜r = x⌝ ∗ dhdr v b lo ws.length hi ty)) (hK : Bad (isDeq e v b lo hi ws ∗ F) (K x)) :
    Bad (isDeq e v b lo hi ws ∗ F) (m >>= K) := by
  refine Bad.bind (lift (e := e) h) fun r => ?_
  rw [sep_assoc]
  apply Bad.pure_left
  rintro rfl
  exact hK

theorem deq_vb {e : ElemSpec nf (T ty) W} {R : HProp V} (hb : b ≠ 0) {h : Heap V} (hh : (isDeq e v b lo hi ws ∗ R) h) : v ≠ b := by
  unfold isDeq dhdr at hh
  rw [buf_ne hb] at hh
  have := loc_ne_of (l₁ := (v, 0)) (l₂ := (b, 0)) hh (by cancel)
  intro h; exact this (by rw [h])

theorem plainCopy_bad {P : HProp V} {t : Ty V} {d l : Loc} (hT : T ty = plainOps t) (h : NotIn l P) : Bad P ((T ty).copy d l) := by
  rw [hT]
  unfold plainOps
  dsimp only
  apply Bad.head
  apply Bad.ldV
  exact h

/-- a plain copy from a slot of the old storage, after the reallocation -/
theorem copy_old_bad {t : Ty V} {e : ElemSpec True (T ty) W} (hp : e.Plain) {K : Unit → M V α} {b' k : Nat} {d : Loc} (hb' : b ≠ b') (hv : b ≠ v) (hk : 0 < k) :
    Bad (isDeq e v b' lo hi ws ∗ emp) ((plainOps t).copy d (b, k) >>= K) := by
  apply Bad.head
  unfold plainOps
  dsimp only
  apply Bad.head
  apply Bad.ldV
  rw [sep_emp]
  exact deq_notIn hp hv (Or.inl hb') hk

theorem realloc_bad {e : ElemSpec True (T ty) W} (hp : e.Plain) {k : Nat} {K : Bool → M V α}
    (hK : ∀ b' lo' hi', b' ≠ 0 → b' ≠ b → k / 2 ≤ lo' → k / 2 ≤ hi' → Bad (isDeq e v b' lo' hi' ws ∗ emp) (K false)) :
    Bad (isDeq e v b lo hi ws ∗ emp) (reallocateAndMove T v k >>= K) := by
  refine Bad.bind (realloc_spec (Or.inl hp)) fun failed => ?_
  cases failed with
  | true =>
    simp only [if_true]
    rw [sep_assoc]
    exact Bad.pure_left fun h => absurd trivial h
  | false =>
    simp only [Bool.false_eq_true, if_false]
    refine Bad.ex fun b' => ?_
    rw [sep_assoc]
    apply Bad.pure_left
    rintro ⟨hb', hbb'⟩
    have : k + ws.length ≤ newCap (lo + ws.length + hi) k ws.length := by
      unfold newCap
      split <;> omega
    exact hK _ _ _ hb' hbb' (by omega) (by omega)

theorem pushBack_alias_bad {t : Ty V} (hT : T ty = plainOps t) {e : ElemSpec True (T ty) W} (hp : e.Plain) {j : Nat} (hj : j < ws.length) :
    Bad (isDeq e v b lo 0 ws) (do let r ← at_ v j; pushBack T v r) := by
  rw [← sep_emp (isDeq e v b lo 0 ws)]
  apply Bad.fact (p := v ≠ 0 ∧ b ≠ 0)
  · intro h hh
    refine ⟨deq_ne hh, ?_⟩
    rintro rfl; have := deq_null hh; omega
  rintro ⟨hv, hb⟩
  apply Bad.fact (p := v ≠ b) (fun h hh => deq_vb hb hh)
  intro hvb
  refine lift_bad at_spec ?_
  unfold pushBack
  rw [if_neg (by simp [hv, hb])]
  refine lift_bad ldFinish ?_
  refine lift_bad ldEos ?_
  rw [if_pos (by simp)]
  refine realloc_bad hp fun b' lo' hi' hb' hbb' _ _ => ?_
  simp only [Bool.false_eq_true, if_false]
  refine lift_bad ldTy ?_
  refine lift_bad ldFinish ?_
  rw [hT]
  exact copy_old_bad hp (Ne.symm hbb') (Ne.symm hvb) (by omega)

theorem hdr_bad {F : HProp V} {m : M V α} {x : α} {n : Nat} {K : α → M V β}
    (h : Triple True (dhdr v b lo n hi ty) m (fun r => ⌜r = x⌝ ∗ dhdr v b lo n hi ty)) (hK : Bad (dhdr v b lo n hi ty ∗ F) (K x)) :
    Bad (dhdr v b lo n hi ty ∗ F) (m >>= K) := by
  refine Bad.bind h fun r => ?_
  rw [sep_assoc]
  apply Bad.pure_left
  rintro rfl
  exact hK

theorem hdr_notIn {l : Loc} {n : Nat} (hv : l.1 ≠ v) (hb : l.1 ≠ b) : NotIn (V := V) l (dhdr v b lo n hi ty) := by
  obtain ⟨l1, l2⟩ := l
  simp only at hv hb
  unfold dhdr
  have h1 : ∀ i, (l1, l2) ≠ (v, i) := fun i h => hv (by cases h; rfl)
  have hbuf : NotIn (V := V) (l1, l2) (buf b (lo + n + hi)) := by
    by_cases h0 : b = 0
    · subst h0; rw [buf_zero]; exact .pure
    · rw [buf_ne h0]; exact .pts (by intro h; cases h; exact hb rfl)
  exact .sep (.pts (h1 _)) (.sep (.pts (h1 _)) (.sep (.pts (h1 _)) (.sep (.pts (h1 _)) (.sep (.pts (h1 _)) (.sep (.pts (h1 _)) hbuf)))))

theorem pushFront_alias_bad {t : Ty V} (hT : T ty = plainOps t) {e : ElemSpec True (T ty) W} (hp : e.Plain) {j : Nat} (hj : j < ws.length) :
    Bad (isDeq e v b 0 hi ws) (do let r ← at_ v j; pushFront T v r) := by
  rw [← sep_emp (isDeq e v b 0 hi ws)]
  apply Bad.fact (p := v ≠ 0 ∧ b ≠ 0)
  · intro h hh
    refine ⟨deq_ne hh, ?_⟩
    rintro rfl; have := deq_null hh; omega
  rintro ⟨hv, hb⟩
  apply Bad.fact (p := v ≠ b) (fun h hh => deq_vb hb hh)
  intro hvb
  refine lift_bad at_spec ?_
  unfold pushFront
  rw [if_neg (by simp [hv, hb])]
  refine lift_bad ldStart ?_
  refine lift_bad ldSos ?_
  rw [if_pos (by simp)]
  refine realloc_bad hp fun b' lo' hi' hb' hbb' hlo _ => ?_
  simp only [Bool.false_eq_true, if_false]
  refine lift_bad ldStart ?_
  have hpm : pminus (V := V) (b', 1 + lo') 1 = pure (b', lo') := by
    unfold pminus
    rw [if_pos (by simp only; omega)]
    simp
  rw [hpm, pure_bind]
  unfold isDeq
  rw [sep_emp]
  refine Bad.bind (stStart (b := b') (lo := lo') (n := ws.length) (lo' := lo' - 1) (n' := ws.length + 1) (by simp; omega) (by omega)) fun _ => ?_
  refine hdr_bad ldTy ?_
  refine hdr_bad ldStart ?_
  refine plainCopy_bad hT ?_
  have n1 : b ≠ v := Ne.symm hvb
  have n2 : b ≠ b' := Ne.symm hbb'
  exact NotIn.sep (hdr_notIn n1 n2) (.sep (.raws (Or.inl n2)) (.sep (.live hp (Or.inl n2)) (.raws (Or.inl n2))))

theorem insert_alias_bad {t : Ty V} (hT : T ty = plainOps t) {e : ElemSpec True (T ty) W} (hp : e.Plain) {i j : Nat} (hi' : i ≤ ws.length) (hj : j < ws.length) :
    Bad (isDeq e v b 0 0 ws) (do let r ← at_ v j; insert T v (b, 1 + i) r) := by
  rw [← sep_emp (isDeq e v b 0 0 ws)]
  apply Bad.fact (p := v ≠ 0 ∧ b ≠ 0)
  · intro h hh
    refine ⟨deq_ne hh, ?_⟩
    rintro rfl; have := deq_null hh; omega
  rintro ⟨hv, hb⟩
  apply Bad.fact (p := v ≠ b) (fun h hh => deq_vb hb hh)
  intro hvb
  refine lift_bad at_spec ?_
  unfold insert insertN
  rw [if_neg (by simp [hv, hb])]
  refine lift_bad isValidPos_spec ?_
  rw [if_neg (by simp; omega)]
  unfold insertRoom
  simp only [bind_assoc]
  refine lift_bad available_spec ?_
  rw [if_pos (by omega)]
  simp only [bind_assoc]
  refine lift_bad ldStart ?_
  have hps : psub (V := V) (b, 1 + i) (b, 1 + 0) = pure i := by
    unfold psub
    rw [if_pos (by simp)]
    simp
  rw [hps, pure_bind]
  refine lift_bad available_spec ?_
  refine realloc_bad hp fun b' lo' hi'' hb' hbb' _ hhi => ?_
  simp only [Bool.false_eq_true, if_false, bind_assoc, pure_bind]
  refine lift_bad ldStart ?_
  unfold insertAux
  have hca : (cassert (v != 0) : M V Unit) = pure () := by
    unfold cassert
    rw [if_pos (by simpa using hv)]
  rw [hca, pure_bind]
  refine lift_bad ldTy ?_
  refine lift_bad availableEnd_spec ?_
  rw [if_pos (by omega)]
  refine lift_bad ldFinish ?_
  have hps : psub (V := V) (b', 1 + lo' + ws.length) (padd (b', 1 + lo') i) = pure (ws.length - i) := by
    unfold psub padd
    rw [if_pos (by simp; omega)]
    dsimp only
    rw [show 1 + lo' + ws.length - (1 + lo' + i) = ws.length - i by omega]
  rw [hps, pure_bind]
  obtain ⟨X, Y, rfl, rfl⟩ : ∃ X Y, ws = X ++ Y ∧ X.length = i := ⟨ws.take i, ws.drop i, by simp, by simp; omega⟩
  obtain ⟨h2, rfl⟩ : ∃ k, hi'' = 1 + k := ⟨hi'' - 1, by omega⟩
  unfold isDeq
  rw [live_append, raws_append]
  have n1 : b ≠ v := Ne.symm hvb
  have n2 : b ≠ b' := Ne.symm hbb'
  refine Bad.pre (P' := (live e b' (1 + lo' + X.length) Y ∗ raws b' (1 + lo' + X.length + ((X ++ Y).length - X.length)) 1) ∗
    (dhdr v b' lo' (X ++ Y).length (1 + h2) ty ∗ raws b' 1 lo' ∗ live e b' (1 + lo') X ∗ raws b' (1 + lo' + (X ++ Y).length + 1) h2)) ?_ ?_
  · rw [show 1 + lo' + X.length + ((X ++ Y).length - X.length) = 1 + lo' + (X ++ Y).length by simp; omega]
    cancel
  simp only [padd]
  refine Bad.bind (memmove_up (e := e) (b := b') (i := 1 + lo' + X.length) (k := 1) (ws := Y) (by simp) rfl) fun _ => ?_
  apply Bad.head
  rw [fill]
  unfold put
  rw [if_pos (by simpa using hb)]
  apply Bad.head
  refine plainCopy_bad hT ?_
  exact .sep (.sep (.raws (Or.inl n2)) (.live hp (Or.inl n2))) (.sep (hdr_notIn n1 n2) (.sep (.raws (Or.inl n2)) (.sep (.live hp (Or.inl n2)) (.raws (Or.inl n2)))))

/-! ## relocation of elements that own memory -/

/-- shrink_to_fit with free slots, for any element type: the bits move to the new storage, the elements are destroyed.  `p` is any block owned by the elements. -/
theorem shrinkToFit_bits {e : ElemSpec True (T ty) W} {xs : List (Val V)} {p m : Nat} {R : HProp V} (hlen : xs.length = ws.length) (hne : ws ≠ [])
    (hspare : 0 < lo + hi) (ho : owns e xs ws ⊢ₛ blk p m ∗ R) :
    Triple True (dhdr v b lo ws.length hi ty ∗ arr b (1 + lo) xs ∗ owns e xs ws ∗ raws b 1 lo ∗ raws b (1 + lo + ws.length) hi) (shrinkToFit T v)
      (fun _ => ∃ₛ b', ⌜b' ≠ 0 ∧ b' ≠ p ∧ v ≠ p⌝ ∗ dhdr v b' 0 ws.length 0 ty ∗ arr b' 1 xs) := by
  apply hdr_fact; intro hv
  apply Triple.fact (p := v ≠ p)
  · intro h hh
    have hh2 := sep_mono (ent_refl _) (sep_mono (ent_refl _) (sep_mono ho (ent_refl _))) _ hh
    unfold dhdr at hh2
    have := loc_ne_of (l₁ := (v, 0)) (l₂ := (p, 0)) hh2 (by cancel)
    intro h; exact this (by rw [h])
  intro hvp
  unfold shrinkToFit
  rw [if_neg hv]
  call eos_spec
  intro r
  xsub
  call end_spec
  intro r
  xsub
  call sos_spec
  intro r
  xsub
  call begin_spec
  intro r
  xsub
  rw [if_neg (by simp; omega)]
  call ldFinish
  intro r
  xsub
  call ldStart
  intro r
  xsub
  apply psub_spec (by omega)
  rw [show 1 + lo + ws.length - (1 + lo) = ws.length by omega]
  rw [if_neg (by simpa using hne)]
  apply mallocO_spec
  · intro h; exact absurd trivial h
  intro a ha
  rw [if_neg ha]
  apply Triple.fact (p := a ≠ p)
  · intro h hh
    have he : (blk a ws.length ∗ raws a 1 ws.length ∗ dhdr v b lo ws.length hi ty ∗ arr b (1 + lo) xs ∗ owns e xs ws ∗ raws b 1 lo ∗ raws b (1 + lo + ws.length) hi) ⊢ₛ
        (blk a ws.length ∗ blk p m ∗ R ∗ raws a 1 ws.length ∗ dhdr v b lo ws.length hi ty ∗ arr b (1 + lo) xs ∗ raws b 1 lo ∗ raws b (1 + lo + ws.length) hi) := by
      refine ent_trans (Q := owns e xs ws ∗ (blk a ws.length ∗ raws a 1 ws.length ∗ dhdr v b lo ws.length hi ty ∗ arr b (1 + lo) xs ∗ raws b 1 lo ∗ raws b (1 + lo + ws.length) hi)) (by cancel) ?_
      refine ent_trans (sep_mono ho (ent_refl _)) ?_
      cancel
    have := loc_ne_of (l₁ := (a, 0)) (l₂ := (p, 0)) (he _ (ent_trans (by cancel) (ent_refl _) h hh)) (by cancel)
    intro h; exact this (by rw [h])
  intro hap
  refine Triple.pre (P' := raws a 1 ws.length ∗ blk a ws.length ∗ dhdr v b lo ws.length hi ty ∗ arr b (1 + lo) xs ∗ owns e xs ws ∗ raws b 1 lo ∗ raws b (1 + lo + ws.length) hi)
    (by cancel) ?_
  refine Triple.pre (sep_mono raws_to_arr (ent_refl _)) ?_
  xintro ys hy
  call (memcpy_arr (b := b) (i := 1 + lo) (c := a) (j := 1) (n := ws.length) (xs := xs) (ys := ys) (by omega) (by omega))
  intro _
  call ldTy
  intro r
  xsub
  call dbegin_spec
  intro r
  xsub
  call dend_spec
  intro r
  xsub
  refine Triple.pre (P' := live e b (1 + lo) ws ∗ (arr a 1 xs ∗ blk a ws.length ∗ dhdr v b lo ws.length hi ty ∗ raws b 1 lo ∗ raws b (1 + lo + ws.length) hi)) ?_ ?_
  · refine ent_trans ?_ (sep_mono (arr_to_live (xs := xs)) (ent_refl _))
    cancel
  call (destroyLoop_spec (e := e) (b := b) (i := 1 + lo) (ws := ws) rfl)
  intro _
  call ldSos
  intro r
  xsub
  unfold dhdr
  call (freeAll (V := V) (nf := True) (b := b) (lo := lo) (n := ws.length) (hi := hi))
  intro _
  steps
  apply Triple.ret
  xexists a
  rw [buf_ne ha]
  simp only [padd, Nat.add_zero, Nat.zero_add]
  cancel

/-- after shrink_to_fit the first element's memory is gone although the deque still refers to it; destroying the deque destroys the element a second time -/
theorem shrink_destroy_bad {t : Ty V} {w : V} {ws : List V} (hspare : 0 < lo + hi) :
    Bad (isDeq (T := fun _ => boxOps t) (ty := ty) (boxSpec t) v b lo hi (w :: ws)) (do
      shrinkToFit (fun _ => boxOps t) v
      destroy (fun _ => boxOps t) v) := by
  generalize hN : (w :: ws).length = N
  have hN0 : 0 < N := by rw [← hN]; simp
  refine Bad.pre (P' := (∃ₛ xs, ⌜xs.length = (w :: ws).length⌝ ∗ arr b (1 + lo) xs ∗ owns (boxSpec t) xs (w :: ws)) ∗
    (dhdr v b lo (w :: ws).length hi ty ∗ raws b 1 lo ∗ raws b (1 + lo + (w :: ws).length) hi)) ?_ ?_
  · unfold isDeq
    refine ent_trans ?_ (sep_mono live_to_arr (ent_refl _))
    cancel
  refine Bad.ex fun xs => ?_
  rw [sep_assoc]
  apply Bad.pure_left
  intro hlen
  obtain ⟨x, xs, rfl⟩ : ∃ x xs', xs = x :: xs' := by
    cases xs with
    | nil => simp at hlen
    | cons x xs => exact ⟨x, xs, rfl⟩
  refine Bad.pre (P' := (∃ₛ p, ⌜x = .num p⌝ ∗ blk p 1 ∗ pts (p, 1) (.obj (some w))) ∗ arr b (1 + lo) (x :: xs) ∗ owns (boxSpec t) xs ws ∗
    (dhdr v b lo (w :: ws).length hi ty ∗ raws b 1 lo ∗ raws b (1 + lo + (w :: ws).length) hi)) ?_ ?_
  · rw [owns]
    show _ ⊢ₛ (boxSpec t).own x w ∗ _
    cancel
  refine Bad.ex fun p => ?_
  rw [sep_assoc]
  apply Bad.pure_left
  rintro rfl
  refine Bad.pre (P' := (dhdr v b lo (w :: ws).length hi ty ∗ arr b (1 + lo) (.num p :: xs) ∗ owns (boxSpec t) (.num p :: xs) (w :: ws) ∗
    raws b 1 lo ∗ raws b (1 + lo + (w :: ws).length) hi) ∗ emp) ?_ ?_
  · rw [owns]
    refine ent_trans (Q := (blk p 1 ∗ pts (p, 1) (.obj (some w))) ∗ (arr b (1 + lo) (.num p :: xs) ∗ owns (boxSpec t) xs ws ∗
      (dhdr v b lo (w :: ws).length hi ty ∗ raws b 1 lo ∗ raws b (1 + lo + (w :: ws).length) hi))) (by cancel) ?_
    have : (blk p 1 ∗ pts (p, 1) (.obj (some w))) ⊢ₛ (boxSpec t).own (.num p) w := by
      show _ ⊢ₛ (∃ₛ q, ⌜(Val.num p : Val V) = .num q⌝ ∗ blk q 1 ∗ pts (q, 1) (.obj (some w)))
      xexists p
      cancel
    refine ent_trans (sep_mono this (ent_refl _)) ?_
    cancel
  have ho : owns (boxSpec t) (.num p :: xs) (w :: ws) ⊢ₛ blk p 1 ∗ (pts (p, 1) (.obj (some w)) ∗ owns (boxSpec t) xs ws) := by
    rw [owns]
    show (∃ₛ q, ⌜(Val.num p : Val V) = .num q⌝ ∗ blk q 1 ∗ pts (q, 1) (.obj (some w))) ∗ _ ⊢ₛ _
    xintro q h
    cases h
    cancel
  refine Bad.bind (shrinkToFit_bits (T := fun _ => boxOps t) (e := boxSpec t) hlen (by simp) (by omega) ho) ?_
  intro _
  refine Bad.ex fun b' => ?_
  rw [sep_assoc]
  apply Bad.pure_left
  rintro ⟨hb', hbp, hvp⟩
  rw [sep_emp, hN]
  apply Bad.fact (p := v ≠ 0) (fun h hh => hdr_ne hh)
  intro hv
  unfold destroy
  rw [if_neg hv]
  apply Bad.head
  unfold clear
  refine hdr_bad empty_spec ?_
  rw [if_neg (by simp; omega)]
  refine hdr_bad ldTy ?_
  refine hdr_bad dbegin_spec ?_
  refine hdr_bad dend_spec ?_
  apply Bad.head
  rw [destroyLoop, if_pos (by simp; omega)]
  apply Bad.head
  unfold boxOps
  dsimp only
  refine Bad.pre (P' := pts (b', 1) (.num p) ∗ (dhdr v b' 0 N 0 ty ∗ arr b' (1+1) xs)) (by rw [arr]; cancel) ?_
  have hld : Triple True (pts (b', 1) (.num p)) (ldN (b', 1)) (fun r => ⌜r = p⌝ ∗ pts (V := V) (b', 1) (.num p)) := by
    rw [← bind_pure (ldN (b', 1))]
    step
    apply Triple.ret
    cancel
  refine Bad.bind hld ?_
  intro r
  rw [sep_assoc]
  apply Bad.pure_left
  rintro rfl
  apply Bad.head
  apply Vec.Bad.destroyV
  have h2 : ∀ i, ((r, 1) : Loc) ≠ (b', i) := fun i h => hbp (by cases h; rfl)
  exact NotIn.sep (.pts (h2 _)) (.sep (hdr_notIn (Ne.symm hvp) (Ne.symm hbp)) (.arr (Or.inl (Ne.symm hbp))))

end CC.Deq
