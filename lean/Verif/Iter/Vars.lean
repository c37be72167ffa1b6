import Verif.Iter.Ops
/-!
# Iterator variables
-/
namespace CC.Iter
open CC CC.Tac
variable {V β : Type} {nf : Prop} {Z : Nat → Nat} {C F P : HProp V} {r : Src V} {Q : β → HProp V} {S : List (Src V)} {vp : Nat}

/-! ### post-increment and post-decrement -/

/-- the common text of post-increment and post-decrement -/
def postMove (k : Kind) (f : Pay → M V Pay) (x : Addr) (tmp : Loc) : M V Addr := do
  cassert (tmp.1 != 0)
  let b ← isIter k x
  if b then do
    saveOld k x tmp
    let p ← ldPay x
    let p ← f p
    stPay x p
    ldN tmp
  else ldN tmp

theorem postIncrement_eq {k : Kind} {x : Addr} {tmp : Loc} : postIncrement (V := V) k x tmp = postMove k (fwdP k) x tmp := rfl
theorem postDecrement_eq {k : Kind} {x : Addr} {tmp : Loc} : postDecrement (V := V) k x tmp = postMove k (bwdP k) x tmp := rfl

theorem move_cps' {i j : Nat} {f : Pay → M V Pay} {a : Nat} {G : HProp V} {K : M V β} (hf : Triple nf C (f (r.pay i)) (fun p => ⌜p = r.pay j⌝ ∗ C))
    (hp : P ⊢ₛ isIt r.kind r.ty a (r.pay i) ∗ C ∗ G)
    (hk : Triple nf (isIt r.kind r.ty a (r.pay j) ∗ C ∗ G) K Q) :
    Triple nf P (do let p ← ldPay a; let p ← f p; stPay a p; K) Q :=
  Triple.pre hp (move_cps (K := fun _ => K) hf hk)

theorem postMove_null {i j a : Nat} {f : Pay → M V Pay} {tmp : Loc} {K : Nat → M V β} (hf : Triple nf C (f (r.pay i)) (fun p => ⌜p = r.pay j⌝ ∗ C))
    (hk : ∀ q, q ≠ 0 → Triple nf (pts tmp (.num q) ∗ isIt r.kind r.ty q (r.pay i) ∗ isIt r.kind r.ty a (r.pay j) ∗ C ∗ F) (K q) Q)
    (hkf : ¬ nf → Triple nf (pts tmp (.num 0) ∗ isIt r.kind r.ty a (r.pay j) ∗ C ∗ F) (K 0) Q) :
    Triple nf (pts tmp (.num 0) ∗ isIt r.kind r.ty a (r.pay i) ∗ C ∗ F) (postMove r.kind f a tmp >>= K) Q := by
  refine Triple.fact (p := tmp.1 ≠ 0) (fun h hh => pts_ne_zero hh) fun hs => ?_
  unfold postMove
  rw [show (tmp.1 != 0) = true by simpa using hs]
  simp only [cassert, ↓reduceIte, pure_bind, bind_assoc]
  rw [sep_left_comm]
  refine isIter_cps ?_
  simp only [decide_true, ↓reduceIte, bind_assoc]
  unfold saveOld
  simp only [bind_assoc]
  step
  simp only [↓reduceIte]
  refine allocAndCopy_cps (fun q hq => ?_) (fun hn => ?_)
  · refine move_cps' (r := r) (G := isIt r.kind r.ty q (r.pay i) ∗ pts tmp (.num q) ∗ F) hf (by cancel) ?_
    step
    refine Triple.pre ?_ (hk q hq)
    cancel
  · refine move_cps' (r := r) (G := pts tmp (.num 0) ∗ F) hf (by cancel) ?_
    step
    refine Triple.pre ?_ (hkf hn)
    cancel

theorem postMove_to {i j a b ty' : Nat} {q : Pay} {f : Pay → M V Pay} {tmp : Loc} {K : Nat → M V β} (hf : Triple nf C (f (r.pay i)) (fun p => ⌜p = r.pay j⌝ ∗ C))
    (hk : b ≠ 0 → Triple nf (pts tmp (.num b) ∗ isIt r.kind ty' b (r.pay i) ∗ isIt r.kind r.ty a (r.pay j) ∗ C ∗ F) (K b) Q) :
    Triple nf (pts tmp (.num b) ∗ isIt r.kind ty' b q ∗ isIt r.kind r.ty a (r.pay i) ∗ C ∗ F) (postMove r.kind f a tmp >>= K) Q := by
  refine Triple.fact (p := tmp.1 ≠ 0) (fun h hh => pts_ne_zero hh) fun hs => ?_
  refine Triple.fact (p := b ≠ 0) (fun h hh => isIt_ne (k := r.kind) (ty := ty') (a := b) (p := q) (F := pts tmp (.num b) ∗ isIt r.kind r.ty a (r.pay i) ∗ C ∗ F)
    ((show _ ⊢ₛ _ by cancel) _ hh)) fun hb => ?_
  refine Triple.fact (p := a ≠ 0) (fun h hh => isIt_ne (k := r.kind) (ty := r.ty) (a := a) (p := r.pay i) (F := pts tmp (.num b) ∗ isIt r.kind ty' b q ∗ C ∗ F)
    ((show _ ⊢ₛ _ by cancel) _ hh)) fun ha => ?_
  unfold postMove
  rw [show (tmp.1 != 0) = true by simpa using hs]
  simp only [cassert, ↓reduceIte, pure_bind, bind_assoc]
  refine Triple.pre (P' := isIt r.kind r.ty a (r.pay i) ∗ pts tmp (.num b) ∗ isIt r.kind ty' b q ∗ C ∗ F) (by cancel) ?_
  refine isIter_cps ?_
  simp only [decide_true, ↓reduceIte, bind_assoc]
  unfold saveOld
  simp only [bind_assoc]
  step
  simp only [hb, ↓reduceIte, bind_assoc]
  refine Triple.pre (P' := isIt r.kind ty' b q ∗ isIt r.kind r.ty a (r.pay i) ∗ pts tmp (.num b) ∗ C ∗ F) (by cancel) ?_
  refine isIter_cps ?_
  simp only [decide_true, cassert, ↓reduceIte, pure_bind]
  unfold assign
  simp only [bind_assoc]
  refine isIter_cps ?_
  simp only [decide_true, Bool.not_true, Bool.false_eq_true, ↓reduceIte, bind_assoc]
  have hit : ItAt (isIt r.kind ty' b q ∗ isIt r.kind r.ty a (r.pay i) ∗ pts tmp (.num b) ∗ C ∗ F) r.kind r.ty a (r.pay i) :=
    ItAt.of_ent (R := isIt r.kind ty' b q ∗ pts tmp (.num b) ∗ C ∗ F) ha (by cancel)
  refine hit.isIter ?_
  simp only [decide_true, Bool.not_true, Bool.false_eq_true, ↓reduceIte, bind_assoc]
  refine Triple.fact (p := b ≠ a) (fun h hh => ?_) fun hba => ?_
  · rintro rfl
    unfold isIt at hh
    exact loc_ne_of (l₁ := (b, 1)) (l₂ := (b, 1)) (R := _) hh (by cancel) rfl
  simp only [ne_eq, hba, not_false_eq_true, ↓reduceIte, bind_assoc, pure_bind]
  refine hit.ldPay ?_
  refine stPay_cps ?_
  refine move_cps' (r := r) (G := isIt r.kind ty' b (r.pay i) ∗ pts tmp (.num b) ∗ F) hf (by cancel) ?_
  step
  refine Triple.pre ?_ (hk hb)
  cancel

/-! ### the memory of the variables -/

/-- the object of a variable -/
def itv (S : List (Src V)) : Var → Nat → HProp V
  | .null, a => ⌜a = 0⌝
  | .raw, a => rawIt a
  | .at_ s i _, a => match S[s]? with
    | none => ⌜False⌝
    | some r => ⌜i ≤ r.len⌝ ∗ isIt r.kind r.ty a (r.pay i)

/-- one variable: its pointer and the object -/
def one (S : List (Src V)) (vp d : Nat) (y : Nat × Var) : HProp V := fld vp (d + 1) y.1 ∗ itv S y.2 y.1

/-- the variables, with the addresses of their objects -/
def ivs (S : List (Src V)) (vp : Nat) : Nat → List (Nat × Var) → HProp V
  | _, [] => emp
  | j, y :: ys => one S vp j y ∗ ivs S vp (j + 1) ys

/-- the iterator variables `(vp, 1)`, `(vp, 2)`, … of the client and the iterator objects they point to -/
def vars (S : List (Src V)) (vp : Nat) (xs : List Var) : HProp V := ∃ₛ ys, ⌜ys.map Prod.snd = xs⌝ ∗ ivs S vp 0 ys

theorem ivs_focus {j d : Nat} {ys : List (Nat × Var)} {y : Nat × Var} (hd : ys[d]? = some y) :
    ∃ R, ivs S vp j ys = (one S vp (j + d) y ∗ R) ∧ ∀ y', ivs S vp j (ys.set d y') = (one S vp (j + d) y' ∗ R) := by
  induction ys generalizing j d with
  | nil => simp at hd
  | cons z ys ih =>
    cases d with
    | zero =>
      simp only [List.getElem?_cons_zero, Option.some.injEq] at hd
      subst hd
      exact ⟨ivs S vp (j + 1) ys, rfl, fun y' => rfl⟩
    | succ d =>
      simp only [List.getElem?_cons_succ] at hd
      obtain ⟨R, h1, h2⟩ := ih (j := j + 1) hd
      refine ⟨one S vp j z ∗ R, ?_, fun y' => ?_⟩
      · rw [ivs, h1, sep_left_comm, Nat.add_right_comm j 1 d]; rfl
      · rw [List.set_cons_succ, ivs, h2, sep_left_comm, Nat.add_right_comm j 1 d]; rfl

theorem ivs_focus2 {j d e : Nat} {ys : List (Nat × Var)} {y z : Nat × Var} (hne : d ≠ e) (hd : ys[d]? = some y) (he : ys[e]? = some z) :
    ∃ R, ivs S vp j ys = (one S vp (j + d) y ∗ one S vp (j + e) z ∗ R) ∧
      ∀ y' z', ivs S vp j ((ys.set e z').set d y') = (one S vp (j + d) y' ∗ one S vp (j + e) z' ∗ R) := by
  induction ys generalizing j d e with
  | nil => simp at hd
  | cons w ys ih =>
    cases d with
    | zero =>
      cases e with
      | zero => exact absurd rfl hne
      | succ e =>
        simp only [List.getElem?_cons_zero, Option.some.injEq] at hd
        subst hd
        obtain ⟨R, h1, h2⟩ := ivs_focus (S := S) (vp := vp) (j := j + 1) (d := e) (ys := ys) (y := z) (by simpa using he)
        refine ⟨R, ?_, fun y' z' => ?_⟩
        · rw [ivs, h1, Nat.add_right_comm j 1 e]; rfl
        · rw [List.set_cons_succ, List.set_cons_zero, ivs, h2, Nat.add_right_comm j 1 e]; rfl
    | succ d =>
      cases e with
      | zero =>
        simp only [List.getElem?_cons_zero, Option.some.injEq] at he
        subst he
        obtain ⟨R, h1, h2⟩ := ivs_focus (S := S) (vp := vp) (j := j + 1) (d := d) (ys := ys) (y := y) (by simpa using hd)
        refine ⟨R, ?_, fun y' z' => ?_⟩
        · rw [ivs, h1, sep_left_comm, Nat.add_right_comm j 1 d]; rfl
        · rw [List.set_cons_zero, List.set_cons_succ, ivs, h2, sep_left_comm, Nat.add_right_comm j 1 d]; rfl
      | succ e =>
        simp only [List.getElem?_cons_succ] at hd he
        obtain ⟨R, h1, h2⟩ := ih (j := j + 1) (fun h => hne (by rw [h])) hd he
        refine ⟨one S vp j w ∗ R, ?_, fun y' z' => ?_⟩
        · rw [ivs, h1, Nat.add_right_comm j 1 d, Nat.add_right_comm j 1 e]
          apply ent_antisymm <;> cancel
        · rw [List.set_cons_succ, List.set_cons_succ, ivs, h2, Nat.add_right_comm j 1 d, Nat.add_right_comm j 1 e]
          apply ent_antisymm <;> cancel

/-- sources of the containers `C`: each behaves, and positions of different sources of one kind are different -/
structure World (nf : Prop) (Z : Nat → Nat) (C : HProp V) (S : List (Src V)) : Prop where
  ok : ∀ r ∈ S, r.Ok nf Z C
  sep : ∀ (s s' : Nat) (r r' : Src V), S[s]? = some r → S[s']? = some r' → s ≠ s' → r.kind = r'.kind → ∀ h (F : HProp V), (C ∗ F) h → ∀ i j, i ≤ r.len → j ≤ r'.len → r.pay i ≠ r'.pay j

theorem var_at {xs : List Var} {ys : List (Nat × Var)} {d : Nat} {x : Var} (h : ys.map Prod.snd = xs) (hx : xs[d]? = some x) : ∃ a, ys[d]? = some (a, x) := by
  subst h
  rw [List.getElem?_map] at hx
  cases hy : ys[d]? with
  | none => rw [hy] at hx; simp at hx
  | some y =>
    rw [hy] at hx
    simp only [Option.map_some, Option.some.injEq] at hx
    exact ⟨y.1, by rw [← hx]⟩

theorem src_at {s : Nat} {sh : Shape} (h : (S.map Src.toShape)[s]? = some sh) : ∃ r, S[s]? = some r ∧ r.toShape = sh := by
  rw [List.getElem?_map] at h
  cases hy : S[s]? with
  | none => rw [hy] at h; simp at h
  | some y =>
    rw [hy] at h
    simp only [Option.map_some, Option.some.injEq] at h
    exact ⟨y, rfl, h⟩

end CC.Iter
