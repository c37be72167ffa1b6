import Verif.Vec.History
import Verif.Core.Bad
/-!
# Where the vector code goes wrong
-/
namespace CC.Vec
open CC CC.Tac
variable {V W β α : Type} {nf : Prop} {T : Nat → Ops V} {ty : Nat}
variable {v b n cap : Nat}

theorem isVec_hdr {e : ElemSpec nf (T ty) W} {ws : List W} {m : M V α} {x : α} (h : ∀ c, Triple nf (vhdr v b ws.length cap ty ∗ c) m (fun r => ⌜r = x⌝ ∗ vhdr v b ws.length cap ty ∗ c)) :
    Triple nf (isVec e v b cap ws) m (fun r => ⌜r = x⌝ ∗ isVec e v b cap ws) := by
  unfold isVec
  exact h _

/-- the vector and its storage are different blocks, not at NULL -/
theorem vec_ne {e : ElemSpec nf (T ty) W} {ws : List W} {R : HProp V} (hb : b ≠ 0) {h : Heap V} (hh : (isVec e v b cap ws ∗ R) h) : v ≠ b := by
  unfold isVec vhdr at hh
  rw [buf_ne hb] at hh
  have := loc_ne_of (l₁ := (v, 0)) (l₂ := (b, 0)) hh (by xintro _; cancel)
  intro h; exact this (by rw [h])

/-- nothing of the vector is behind the end of its storage -/
theorem vec_notIn {e : ElemSpec nf (T ty) W} {ws : List W} (hp : e.Plain) (hb : b ≠ 0) (hv : v ≠ b) (hcap : ws.length ≤ cap) {l : Loc} (hl : l.1 = b) (hl2 : cap < l.2) :
    NotIn l (isVec e v b cap ws) := by
  obtain ⟨l1, l2⟩ := l
  simp only at hl hl2
  subst hl
  unfold isVec vhdr
  rw [buf_ne hb]
  have h1 : ∀ i, (l1, l2) ≠ (v, i) := fun i h => hv (by cases h; rfl)
  refine .sep (.sep (.pts (h1 _)) (.sep (.pts (h1 _)) (.sep (.pts (h1 _)) (.sep (.pts (h1 _)) (.sep (.pts (h1 _)) (.pts ?_)))))) (.sep .pure (.sep (.live hp ?_) (.raws ?_)))
  · intro h; cases h; omega
  · exact Or.inr (Or.inr (by simp only; omega))
  · exact Or.inr (Or.inr (by simp only; omega))

/-- nothing of the vector is in other blocks -/
theorem vec_notIn' {e : ElemSpec nf (T ty) W} {ws : List W} (hp : e.Plain) (hb : b ≠ 0) {l : Loc} (hl : l.1 ≠ b) (hl2 : l.1 ≠ v) :
    NotIn l (isVec e v b cap ws) := by
  obtain ⟨l1, l2⟩ := l
  simp only at hl hl2
  unfold isVec vhdr
  rw [buf_ne hb]
  have h1 : ∀ i, (l1, l2) ≠ (v, i) := fun i h => hl2 (by cases h; rfl)
  have h2 : ∀ i, (l1, l2) ≠ (b, i) := fun i h => hl (by cases h; rfl)
  exact .sep (.sep (.pts (h1 _)) (.sep (.pts (h1 _)) (.sep (.pts (h1 _)) (.sep (.pts (h1 _)) (.sep (.pts (h1 _)) (.pts (h2 _))))))) (.sep .pure (.sep (.live hp (Or.inl hl)) (.raws (Or.inl hl))))

theorem fill_bad {t : Ty V} {s : Mem V} {b i j n : Nat} {value : Loc} (hv0 : value.1 ≠ 0) (hj : j < n) (h : s.cells (b, i + j) = none) :
    fill (plainOps t) (b, i) n value s = some (.error .ub) := by
  induction n generalizing i j s with
  | zero => omega
  | succ n ih =>
    rw [fill]
    unfold put
    rw [if_pos hv0]
    rcases plainCopy_cases (ty := t) s (b, i) value with h1 | ⟨h0, s', h1, h2⟩
    · exact bind_error h1
    · rw [bind_ok h1]
      cases j with
      | zero => exact absurd h h0
      | succ j =>
        refine ih (j := j) (by omega) (h2 _ ?_)
        rw [show i + 1 + j = i + (j + 1) by omega]
        exact h

/-- `insert_n` writes outside the storage whenever the reallocation did not make enough room -/
theorem insertN_bad {t : Ty V} (hT : T ty = plainOps t) {e : ElemSpec True (T ty) W} (hp : e.Plain) {X Y : List W} {count a : Nat} {w : W}
    (hroom : insCap cap (X ++ Y).length count < (X ++ Y).length + count) :
    Bad (isVec e v b cap (X ++ Y) ∗ blk a 1 ∗ cell e (a, 1) w) (insertN T v (b, 1 + X.length) count (a, 1)) := by
  apply Bad.fact (p := v ≠ 0 ∧ a ≠ 0 ∧ (X ++ Y).length ≤ cap)
  · intro h hh
    refine ⟨?_, ?_, vec_cap hh⟩
    · unfold isVec at hh; rw [sep_assoc] at hh; exact hdr_ne hh
    · rw [sep_left_comm] at hh; obtain ⟨_, _, _, _, h1, _⟩ := hh; exact h1.1
  rintro ⟨hv, ha, hcap⟩
  have hfull : cap < (X ++ Y).length + count := by
    unfold insCap at hroom
    split at hroom <;> omega
  have hval : Triple True (isVec e v b cap (X ++ Y)) (isValidPos v (b, 1 + X.length)) (fun r => ⌜r = true⌝ ∗ isVec e v b cap (X ++ Y)) := by
    unfold isVec; xintro h; call isValidPos_spec; intro r; xsub; cancel; simp
  unfold insertN
  rw [if_neg (by simp [hv, ha])]
  refine Bad.bind hval ?_
  intro r
  rw [sep_assoc]
  apply Bad.pure_left
  rintro rfl
  simp only [Bool.not_true, Bool.false_eq_true, if_false]
  refine Bad.bind (insertRoom_spec (count := count) (k := X.length) (by simp) (Or.inl hp)) ?_
  intro r
  cases r with
  | none =>
    dsimp only
    rw [sep_assoc]
    exact Bad.pure_left fun h => absurd trivial h.1
  | some p =>
    dsimp only
    refine Bad.ex fun b' => ?_
    rw [sep_assoc]
    apply Bad.pure_left
    rintro ⟨rfl, _, hb'⟩
    have hb' := hb' hfull
    generalize hN : insCap cap (X ++ Y).length count = N at *
    have hle : ∀ {R : HProp V} {h : Heap V}, (isVec e v b' N (X ++ Y) ∗ R) h → (X ++ Y).length ≤ N := vec_cap
    have hldf : Triple True (isVec e v b' N (X ++ Y)) (ldP (v, 2)) (fun r => ⌜r = (b', 1 + (X ++ Y).length)⌝ ∗ isVec e v b' N (X ++ Y)) := by
      unfold isVec; xintro h; call ldFinish; intro r; xsub; cancel
    have hldty : Triple True (isVec e v b' N (X ++ Y)) (ldN (v, 4)) (fun r => ⌜r = ty⌝ ∗ isVec e v b' N (X ++ Y)) := by
      unfold isVec; xintro h; call ldTy; intro r; xsub; cancel
    -- the slot behind the end of the new storage is not allocated
    have hout : ∀ h, (isVec e v b' N (X ++ Y) ∗ blk a 1 ∗ cell e (a, 1) w) h → h (b', (X ++ Y).length + count) = none := by
      intro h hh
      have hva : a ≠ b' := by
        unfold isVec vhdr at hh
        rw [buf_ne hb'] at hh
        have := loc_ne_of (l₁ := (a, 0)) (l₂ := (b', 0)) hh (by xintro _; cancel)
        intro h; exact this (by rw [h])
      have hne : ∀ i, ((b', (X ++ Y).length + count) : Loc) ≠ (a, i) := fun i h => hva (by cases h; rfl)
      refine NotIn.sep (vec_notIn hp hb' (vec_ne hb' hh) (vec_cap hh) rfl hroom) (.sep (.pts (hne _)) ?_) h hh
      unfold cell
      refine .ex fun x => .sep (.pts (hne _)) ?_
      obtain ⟨p, hp'⟩ := hp x w
      rw [hp']
      exact .pure
    refine Bad.bind hldf ?_
    intro r
    rw [sep_assoc]
    apply Bad.pure_left
    rintro rfl
    have hps : (psub (b', 1 + (X ++ Y).length) (b', 1 + X.length) : M V Nat) = pure Y.length := by
      unfold psub
      rw [if_pos ⟨rfl, by simp⟩]
      congr 1
      simp
      omega
    rw [hps, pure_bind]
    by_cases hY : Y = []
    · subst hY
      have hm0 : ∀ d s : Loc, (memmove d s 0 : M V Unit) = pure () := fun _ _ => rfl
      rw [List.length_nil, hm0, pure_bind]
      refine Bad.bind hldty ?_
      intro r
      rw [sep_assoc]
      apply Bad.pure_left
      rintro rfl
      apply Bad.head
      intro s _ hs
      rw [hT]
      have hc : 0 < count := by simp at hcap hfull; omega
      refine fill_bad (j := count - 1) ha (by omega) ?_
      rw [show 1 + X.length + (count - 1) = (X ++ []).length + count by simp; omega]
      exact hout _ hs
    · apply Bad.head
      intro s _ hs
      have hl : 0 < Y.length := List.length_pos_iff.2 hY
      refine memmove_bad (j := Y.length - 1) (by omega) ?_
      rw [show 1 + X.length + count + (Y.length - 1) = (X ++ Y).length + count by simp; omega]
      exact hout _ hs

/-- push_back of an element of the vector itself when a reallocation is needed: the reference dangles when it is read -/
theorem pushBack_alias_bad {t : Ty V} (hT : T ty = plainOps t) {e : ElemSpec True (T ty) W} (hp : e.Plain) {ws : List W} {j : Nat}
    (hj : j < ws.length) (hfull : ws.length = cap) :
    Bad (isVec e v b cap ws) (do let r ← at_ v j; pushBack T v r) := by
  rw [← sep_emp (isVec e v b cap ws)]
  refine Bad.bind at_spec ?_
  intro r
  rw [sep_assoc]
  apply Bad.pure_left
  rintro rfl
  apply Bad.fact (p := v ≠ 0 ∧ b ≠ 0)
  · intro h hh
    refine ⟨?_, ?_⟩
    · unfold isVec at hh; rw [sep_assoc] at hh; exact hdr_ne hh
    · rintro rfl; have := vec_cap0 hh; omega
  rintro ⟨hv, hb⟩
  apply Bad.fact (p := v ≠ b) (fun h hh => vec_ne hb hh)
  intro hvb
  unfold pushBack
  rw [if_neg (by simp [hv, hb])]
  have hldf : Triple True (isVec e v b cap ws) (ldP (v, 2)) (fun r => ⌜r = (b, 1 + ws.length)⌝ ∗ isVec e v b cap ws) := by
    unfold isVec; xintro h; call ldFinish; intro r; xsub; cancel
  have hlde : Triple True (isVec e v b cap ws) (ldP (v, 3)) (fun r => ⌜r = (b, 1 + cap)⌝ ∗ isVec e v b cap ws) := by
    unfold isVec; xintro h; call ldEos; intro r; xsub; cancel
  refine Bad.bind hldf ?_
  intro r
  rw [sep_assoc]
  apply Bad.pure_left
  rintro rfl
  refine Bad.bind hlde ?_
  intro r
  rw [sep_assoc]
  apply Bad.pure_left
  rintro rfl
  rw [if_pos (by rw [hfull])]
  refine Bad.bind (realloc_spec' (Or.inl hp)) ?_
  intro failed
  cases failed with
  | true =>
    simp only [if_true]
    rw [sep_assoc]
    exact Bad.pure_left fun h => absurd trivial h
  | false =>
    simp only [Bool.false_eq_true, if_false]
    refine Bad.ex fun b' => ?_
    rw [sep_assoc]
    apply Bad.pure_left
    rintro ⟨hb', hbb'⟩
    generalize newCap cap 1 ws.length = N
    have hldf : Triple True (isVec e v b' N ws) (ldP (v, 2)) (fun r => ⌜r = (b', 1 + ws.length)⌝ ∗ isVec e v b' N ws) := by
      unfold isVec; xintro h; call ldFinish; intro r; xsub; cancel
    have hldty : Triple True (isVec e v b' N ws) (ldN (v, 4)) (fun r => ⌜r = ty⌝ ∗ isVec e v b' N ws) := by
      unfold isVec; xintro h; call ldTy; intro r; xsub; cancel
    refine Bad.bind hldty ?_
    intro r
    rw [sep_assoc]
    apply Bad.pure_left
    rintro rfl
    refine Bad.bind hldf ?_
    intro r
    rw [sep_assoc]
    apply Bad.pure_left
    rintro rfl
    apply Bad.head
    rw [hT]
    unfold plainOps
    dsimp only
    apply Bad.head
    apply Bad.ldV
    rw [sep_emp]
    exact vec_notIn' hp hb' (Ne.symm hbb') (Ne.symm hvb)

end CC.Vec
