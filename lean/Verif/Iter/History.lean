import Verif.Iter.Vars
/-!
# Histories of iterator operations
-/
namespace CC.Iter
open CC CC.Tac
variable {V β : Type} {nf : Prop} {Z : Nat → Nat} {C F P : HProp V} {r : Src V} {Q : β → HProp V} {S : List (Src V)} {vp : Nat}
variable {xs : List Var} {ys : List (Nat × Var)}

theorem itv_at {s i a : Nat} {o : Bool} (h : S[s]? = some r) : itv S (.at_ s i o) a = (⌜i ≤ r.len⌝ ∗ isIt r.kind r.ty a (r.pay i)) := by
  simp only [itv, h]

theorem itv_null : itv S .null 0 = emp := by
  unfold itv
  rw [← hpure_true]
  congr 1
  simp

theorem freeIt {a : Addr} {u v w x y : Val V} :
    Triple nf (blk a 5 ∗ pts (a,1) u ∗ pts (a,2) v ∗ pts (a,3) w ∗ pts (a,4) x ∗ pts (a,5) y) (free a) (fun _ => emp) := by
  have := Triple.free_spec (nf := nf) (P := emp) (Q := fun _ => emp) (n := 5) (a := a) (vs := [u,v,w,x,y]) (k := fun _ => pure ()) rfl
    (Triple.ret (ent_refl _))
  simpa [arr] using this

/-- what is reached after an operation -/
def after (nf : Prop) (S : List (Src V)) (vp : Nat) (C : HProp V) (xs : List Var) (op : Op) (ob : Obs) : HProp V :=
  ∃ₛ xs', ⌜Step nf (S.map Src.toShape) xs op xs' ob⌝ ∗ C ∗ vars S vp xs'

theorem fin {xs' : List Var} {ys' : List (Nat × Var)} {op : Op} {ob : Obs} (h : Step nf (S.map Src.toShape) xs op xs' ob) (hm : ys'.map Prod.snd = xs')
    (he : P ⊢ₛ C ∗ ivs S vp 0 ys') : P ⊢ₛ after nf S vp C xs op ob := by
  unfold after
  apply ent_ex_right xs'
  refine ent_pure_right h (ent_trans he ?_)
  refine sep_mono (ent_refl _) ?_
  unfold vars
  apply ent_ex_right ys'
  exact ent_pure_right hm (ent_refl _)

/-- the variable is an iterator: take it out -/
theorem with_at {d a s i : Nat} {o : Bool} {m : M V β} (hd : ys[d]? = some (a, .at_ s i o)) (hS : S[s]? = some r)
    (hk : ∀ R, (∀ y', ivs S vp 0 (ys.set d y') = (one S vp d y' ∗ R)) → i ≤ r.len →
      Triple nf (isIt r.kind r.ty a (r.pay i) ∗ C ∗ fld vp (d + 1) a ∗ R) m Q) : Triple nf (C ∗ ivs S vp 0 ys) m Q := by
  obtain ⟨R, e1, e2⟩ := ivs_focus (S := S) (vp := vp) (j := 0) hd
  simp only [Nat.zero_add] at e1 e2
  rw [e1]
  unfold one
  rw [itv_at hS]
  refine Triple.pre (P' := ⌜i ≤ r.len⌝ ∗ isIt r.kind r.ty a (r.pay i) ∗ C ∗ fld vp (d + 1) a ∗ R) (by cancel) ?_
  exact Triple.pure_left fun hi => hk R e2 hi

/-- put it back at another position -/
theorem put {d a s j : Nat} {o : Bool} {R : HProp V} (hS : S[s]? = some r) (hj : j ≤ r.len) (e2 : ∀ y', ivs S vp 0 (ys.set d y') = (one S vp d y' ∗ R)) :
    (isIt r.kind r.ty a (r.pay j) ∗ C ∗ fld vp (d + 1) a ∗ R) ⊢ₛ C ∗ ivs S vp 0 (ys.set d (a, .at_ s j o)) := by
  rw [e2]
  unfold one
  rw [itv_at hS]
  have : (⌜j ≤ r.len⌝ : HProp V) = emp := by rw [← hpure_true]; congr 1; simp [hj]
  rw [this, emp_sep]
  cancel

theorem map_set {d a : Nat} {x : Var} (h : ys.map Prod.snd = xs) : (ys.set d (a, x)).map Prod.snd = xs.set d x := by
  rw [List.map_set, h]

/-- reading the pointer of a variable -/
theorem var_reads {d a : Nat} {x : Var} (hd : ys[d]? = some (a, x)) : ReadsN (C ∗ ivs S vp 0 ys) (var vp d) a := by
  obtain ⟨R, e1, _⟩ := ivs_focus (S := S) (vp := vp) (j := 0) hd
  rw [e1]
  refine .of_ent (R := C ∗ itv S x a ∗ R) ?_
  unfold one
  simp only [Nat.zero_add]
  cancel

/-- the variable is an iterator: it may be read -/
theorem with_it {d a s i : Nat} {o : Bool} {m : M V β} (hd : ys[d]? = some (a, .at_ s i o))
    (hk : ∀ r, S[s]? = some r → i ≤ r.len → ItAt (C ∗ ivs S vp 0 ys) r.kind r.ty a (r.pay i) → Triple nf (C ∗ ivs S vp 0 ys) m Q) : Triple nf (C ∗ ivs S vp 0 ys) m Q := by
  obtain ⟨R, e1, _⟩ := ivs_focus (S := S) (vp := vp) (j := 0) hd
  cases hS : S[s]? with
  | none =>
    refine Triple.fact (p := False) (fun h hh => ?_) (fun h => h.elim)
    rw [e1] at hh
    unfold one itv at hh
    simp only [hS] at hh
    have h2 : (⌜False⌝ ∗ C ∗ fld vp (0 + d + 1) a ∗ R) h := (show _ ⊢ₛ _ by cancel) _ hh
    exact (hpure_sep_apply.1 h2).1
  | some r =>
    have he : (C ∗ ivs S vp 0 ys) ⊢ₛ ⌜i ≤ r.len⌝ ∗ isIt r.kind r.ty a (r.pay i) ∗ C ∗ fld vp (0 + d + 1) a ∗ R := by
      rw [e1]
      unfold one
      rw [itv_at hS]
      cancel
    refine Triple.fact (p := a ≠ 0 ∧ i ≤ r.len) (fun h hh => ?_) fun hp => ?_
    · have h2 := hpure_sep_apply.1 (he _ hh)
      exact ⟨isIt_ne h2.2, h2.1⟩
    refine hk r hS hp.2 ?_
    refine ItAt.of_ent (R := C ∗ fld vp (0 + d + 1) a ∗ R) hp.1 ?_
    refine ent_trans he ?_
    exact ent_pure_left fun _ => ent_refl _

theorem ItAt.mono {k : Kind} {ty a : Nat} {p : Pay} {P' : HProp V} (h : ItAt P k ty a p) (he : P' ⊢ₛ P) : ItAt P' k ty a p :=
  ⟨h.1, fun m hm => h.2.1 m (he m hm), fun m hm => h.2.2.1 m (he m hm), fun m hm => h.2.2.2.1 m (he m hm), fun m hm => h.2.2.2.2.1 m (he m hm),
    fun m hm => h.2.2.2.2.2 m (he m hm)⟩

theorem hpure_of {p : Prop} (h : p) : (⌜p⌝ : HProp V) = emp := by rw [← hpure_true]; congr 1; simp [h]

theorem set_self {α : Type} {l : List α} {d : Nat} {x : α} (h : l[d]? = some x) : l.set d x = l := by
  apply List.ext_getElem?
  intro j
  rw [List.getElem?_set]
  by_cases hj : d = j
  · subst hj
    obtain ⟨hl, _⟩ := List.getElem?_eq_some_iff.1 h
    rw [if_pos rfl, if_pos hl, h]
  · rw [if_neg hj]

/-- the variable points to a struct: take it out -/
theorem with_raw {d a : Nat} {x : Var} {m : M V β} (hd : ys[d]? = some (a, x)) (hn : x ≠ .null)
    (hk : ∀ R, (∀ y', ivs S vp 0 (ys.set d y') = (one S vp d y' ∗ R)) → Triple nf (rawIt a ∗ C ∗ fld vp (d + 1) a ∗ R) m Q) : Triple nf (C ∗ ivs S vp 0 ys) m Q := by
  obtain ⟨R, e1, e2⟩ := ivs_focus (S := S) (vp := vp) (j := 0) hd
  simp only [Nat.zero_add] at e1 e2
  refine Triple.pre ?_ (hk R e2)
  rw [e1]
  unfold one
  have : itv S x a ⊢ₛ rawIt a := by
    cases x with
    | null => exact absurd rfl hn
    | raw => exact ent_refl _
    | at_ s i o =>
      unfold itv
      cases hS : S[s]? with
      | none =>
        simp only [hS]
        rw [← sep_emp (⌜False⌝ : HProp V)]
        exact ent_pure_left fun h => False.elim h
      | some r =>
        simp only [hS]
        exact ent_pure_left fun _ => isIt_raw
  refine ent_trans (show _ ⊢ₛ itv S x a ∗ C ∗ fld vp (d + 1) a ∗ R by cancel) ?_
  exact sep_mono this (ent_refl _)

/-- a variable with a struct is not NULL -/
theorem nonnull {d a : Nat} {x : Var} {m : M V β} (hd : ys[d]? = some (a, x)) (hn : x ≠ .null)
    (hk : a ≠ 0 → Triple nf (C ∗ ivs S vp 0 ys) m Q) : Triple nf (C ∗ ivs S vp 0 ys) m Q := by
  by_cases ha : a = 0
  · refine with_raw hd hn fun R _ => ?_
    refine Triple.fact (p := False) (fun h hh => rawIt_ne hh ha) (fun h => h.elim)
  · exact hk ha

theorem vp_ne {d a : Nat} {x : Var} {m : M V β} (hd : ys[d]? = some (a, x)) (hk : vp ≠ 0 → Triple nf (C ∗ ivs S vp 0 ys) m Q) : Triple nf (C ∗ ivs S vp 0 ys) m Q := by
  obtain ⟨R, e1, _⟩ := ivs_focus (S := S) (vp := vp) (j := 0) hd
  refine Triple.fact (p := vp ≠ 0) (fun h hh => ?_) hk
  rw [e1] at hh
  unfold one at hh
  exact pts_ne_zero (l := (vp, 0 + d + 1)) (v := .num a) (R := _) ((show _ ⊢ₛ _ by cancel) _ hh)

theorem null_zero {d a : Nat} {m : M V β} (hd : ys[d]? = some (a, .null)) (hk : a = 0 → Triple nf (C ∗ ivs S vp 0 ys) m Q) : Triple nf (C ∗ ivs S vp 0 ys) m Q := by
  obtain ⟨R, e1, _⟩ := ivs_focus (S := S) (vp := vp) (j := 0) hd
  refine Triple.fact (p := a = 0) (fun h hh => ?_) hk
  rw [e1] at hh
  unfold one itv at hh
  have h2 : (⌜a = 0⌝ ∗ C ∗ fld vp (0 + d + 1) a ∗ R) h := (show _ ⊢ₛ _ by cancel) _ hh
  exact (hpure_sep_apply.1 h2).1

/-- copying an iterator to a NULL variable -/
theorem copy_cps {d e a b s i : Nat} {o : Bool} {K : Unit → M V β} (hm : ys.map Prod.snd = xs) (hd : ys[d]? = some (a, .null)) (he : ys[e]? = some (b, .at_ s i o))
    (hk : ∀ ys', ys'.map Prod.snd = xs.set d (.at_ s i true) → Triple nf (C ∗ ivs S vp 0 ys') (K ()) Q)
    (hf : ¬ nf → Triple nf (C ∗ ivs S vp 0 ys) (K ()) Q) : Triple nf (C ∗ ivs S vp 0 ys) (cCopy (var vp d) b >>= K) Q := by
  refine null_zero hd fun ha0 => ?_
  subst ha0
  have hne : d ≠ e := by
    rintro rfl
    rw [hd] at he
    simp at he
  unfold cCopy
  rw [bind_assoc]
  refine with_it he fun r hS hle hit => ?_
  refine hit.opsOf ?_
  obtain ⟨R, e1, e2⟩ := ivs_focus2 (S := S) (vp := vp) (j := 0) hne hd he
  simp only [Nat.zero_add] at e1 e2
  refine Triple.pre (P' := pts (var vp d) (.num 0) ∗ isIt r.kind r.ty b (r.pay i) ∗ C ∗ fld vp (e + 1) b ∗ R) ?_ ?_
  · rw [e1]
    unfold one
    rw [itv_at hS, hpure_of hle, emp_sep]
    dsimp only
    rw [itv_null]
    cancel
  refine allocAndCopy_cps (fun q hq => ?_) (fun hn => ?_)
  · refine Triple.pre ?_ (hk ((ys.set e (b, .at_ s i o)).set d (q, .at_ s i true)) (by rw [set_self he]; exact map_set hm))
    rw [e2]
    unfold one
    rw [itv_at hS, itv_at hS, hpure_of hle, emp_sep, emp_sep]
    cancel
  · refine Triple.pre ?_ (hf hn)
    rw [e1]
    unfold one
    rw [itv_at hS, hpure_of hle, emp_sep]
    dsimp only
    rw [itv_null]
    cancel

/-- assigning iterators -/
theorem assign_cps {d e a b s i s' i' : Nat} {o o' : Bool} {r' : Src V} {K : Nat → M V β} (hm : ys.map Prod.snd = xs) (hd : ys[d]? = some (a, .at_ s i o))
    (he : ys[e]? = some (b, .at_ s' i' o')) (hS : S[s]? = some r) (hS' : S[s']? = some r')
    (hk : r.kind = r'.kind → r.ty = r'.ty → ∀ ys', ys'.map Prod.snd = xs.set d (.at_ s' i' o) → Triple nf (C ∗ ivs S vp 0 ys') (K a) Q)
    (ht : r.kind = r'.kind → r.ty = r'.ty)
    (hf : r.kind ≠ r'.kind → Triple nf (C ∗ ivs S vp 0 ys) (K a) Q) : Triple nf (C ∗ ivs S vp 0 ys) (cAssign a b >>= K) Q := by
  refine with_it he fun r2 hS2 hle' hit => ?_
  obtain rfl : r' = r2 := by rw [hS'] at hS2; exact Option.some.inj hS2
  refine with_at hd hS fun R e2 hle => ?_
  have hback := put (C := C) (o := o) (a := a) hS hle e2
  rw [set_self hd] at hback
  refine cAssign_cps (hit.mono hback) ?_
  by_cases hkk : r.kind = r'.kind
  · rw [if_pos hkk]
    refine Triple.pre ?_ (hk hkk (ht hkk) (ys.set d (a, .at_ s' i' o)) (map_set hm))
    rw [e2]
    unfold one
    rw [itv_at hS', hpure_of hle', emp_sep, hkk, ht hkk]
    cancel
  · rw [if_neg hkk]
    exact Triple.pre hback (hf hkk)

/-- post-increment and post-decrement to a NULL variable -/
theorem postNull_cps {d t a c s i j : Nat} {o : Bool} {f : Pay → M V Pay} {K : Nat → M V β} (hm : ys.map Prod.snd = xs) (hd : ys[d]? = some (a, .at_ s i o))
    (ht : ys[t]? = some (c, .null)) (hS : S[s]? = some r) (hj : j ≤ r.len) (hf : Triple nf C (f (r.pay i)) (fun p => ⌜p = r.pay j⌝ ∗ C))
    (hk : ∀ q, q ≠ 0 → ∀ ys', ys'.map Prod.snd = (xs.set t (.at_ s i true)).set d (.at_ s j o) → Triple nf (C ∗ ivs S vp 0 ys') (K q) Q)
    (hkf : ¬ nf → ∀ ys', ys'.map Prod.snd = xs.set d (.at_ s j o) → Triple nf (C ∗ ivs S vp 0 ys') (K 0) Q) :
    Triple nf (C ∗ ivs S vp 0 ys) (postMove r.kind f a (var vp t) >>= K) Q := by
  refine null_zero ht fun hc => ?_
  subst hc
  have hne : d ≠ t := by
    rintro rfl
    rw [hd] at ht
    simp at ht
  refine with_it hd fun r2 hS2 hle _ => ?_
  obtain rfl : r = r2 := by rw [hS] at hS2; exact Option.some.inj hS2
  obtain ⟨R, e1, e2⟩ := ivs_focus2 (S := S) (vp := vp) (j := 0) hne hd ht
  simp only [Nat.zero_add] at e1 e2
  refine Triple.pre (P' := pts (var vp t) (.num 0) ∗ isIt r.kind r.ty a (r.pay i) ∗ C ∗ fld vp (d + 1) a ∗ R) ?_ ?_
  · rw [e1]
    unfold one
    rw [itv_at hS, hpure_of hle, emp_sep]
    dsimp only
    rw [itv_null]
    cancel
  refine postMove_null hf (fun q hq => ?_) (fun hn => ?_)
  · refine Triple.pre ?_ (hk q hq ((ys.set t (q, .at_ s i true)).set d (a, .at_ s j o)) (map_set (map_set hm)))
    rw [e2]
    unfold one
    rw [itv_at hS, itv_at hS, hpure_of hle, hpure_of hj, emp_sep, emp_sep]
    cancel
  · refine Triple.pre ?_ (hkf hn ((ys.set t (0, .null)).set d (a, .at_ s j o)) (by rw [set_self ht]; exact map_set hm))
    rw [e2]
    unfold one
    rw [itv_at hS, hpure_of hj, emp_sep]
    dsimp only
    rw [itv_null]
    cancel

/-- post-increment and post-decrement to another iterator -/
theorem postTo_cps {d t a c s i j s' i' : Nat} {o o' : Bool} {r' : Src V} {f : Pay → M V Pay} {K : Nat → M V β} (hm : ys.map Prod.snd = xs) (hne : d ≠ t)
    (hd : ys[d]? = some (a, .at_ s i o)) (ht : ys[t]? = some (c, .at_ s' i' o')) (hS : S[s]? = some r) (hS' : S[s']? = some r') (hkk : r.kind = r'.kind) (hty : r.ty = r'.ty)
    (hj : j ≤ r.len) (hf : Triple nf C (f (r.pay i)) (fun p => ⌜p = r.pay j⌝ ∗ C))
    (hk : ∀ q, q ≠ 0 → ∀ ys', ys'.map Prod.snd = (xs.set t (.at_ s i o')).set d (.at_ s j o) → Triple nf (C ∗ ivs S vp 0 ys') (K q) Q) :
    Triple nf (C ∗ ivs S vp 0 ys) (postMove r.kind f a (var vp t) >>= K) Q := by
  refine with_it hd fun r2 hS2 hle _ => ?_
  obtain rfl : r = r2 := by rw [hS] at hS2; exact Option.some.inj hS2
  refine with_it ht fun r2 hS2 hle' _ => ?_
  obtain rfl : r' = r2 := by rw [hS'] at hS2; exact Option.some.inj hS2
  obtain ⟨R, e1, e2⟩ := ivs_focus2 (S := S) (vp := vp) (j := 0) hne hd ht
  simp only [Nat.zero_add] at e1 e2
  refine Triple.pre (P' := pts (var vp t) (.num c) ∗ isIt r.kind r'.ty c (r'.pay i') ∗ isIt r.kind r.ty a (r.pay i) ∗ C ∗ fld vp (d + 1) a ∗ R) ?_ ?_
  · rw [e1]
    unfold one
    rw [itv_at hS, itv_at hS', hpure_of hle, hpure_of hle', emp_sep, emp_sep, ← hkk]
    cancel
  refine postMove_to hf (fun hc => ?_)
  refine Triple.pre ?_ (hk c hc ((ys.set t (c, .at_ s i o')).set d (a, .at_ s j o)) (map_set (map_set hm)))
  rw [e2]
  unfold one
  rw [itv_at hS, itv_at hS, hpure_of hle, hpure_of hj, emp_sep, emp_sep, ← hty]
  cancel

theorem same_pos {s s' i i' : Nat} {r r' : Src V} {h : Heap V} {F : HProp V} (hw : World nf Z C S) (hS : S[s]? = some r) (hS' : S[s']? = some r') (hle : i ≤ r.len) (hle' : i' ≤ r'.len)
    (hh : (C ∗ F) h) : (r.kind = r'.kind ∧ r.pay i = r'.pay i') ↔ (s = s' ∧ i = i') := by
  constructor
  · rintro ⟨h1, h2⟩
    by_cases hs : s = s'
    · subst hs
      obtain rfl : r = r' := by rw [hS] at hS'; exact Option.some.inj hS'
      exact ⟨rfl, (hw.ok r (List.mem_of_getElem? hS)).inj h F hh i i' hle hle' h2⟩
    · exact absurd h2 (hw.sep s s' r r' hS hS' hs h1 h F hh i i' hle hle')
  · rintro ⟨rfl, rfl⟩
    obtain rfl : r = r' := by rw [hS] at hS'; exact Option.some.inj hS'
    exact ⟨rfl, rfl⟩

section
variable {op : Op} (hw : World nf Z C S) (hm : ys.map Prod.snd = xs)
include hw hm

/-- each operation does what the specification says -/
theorem op_spec' (hv : ∃ xs' ob, Step nf (S.map Src.toShape) xs op xs' ob) :
    Triple nf (C ∗ ivs S vp 0 ys) (run Z S vp op) (after nf S vp C xs op) := by
  obtain ⟨xs', ob, hv⟩ := hv
  have okr : ∀ {s : Nat} {r : Src V}, S[s]? = some r → r.Ok nf Z C := fun h => hw.ok _ (List.mem_of_getElem? h)
  cases hv with
  | @first s d x sh hx hnn hsh =>
    obtain ⟨a, ha⟩ := var_at hm hx
    obtain ⟨r, hS, rfl⟩ := src_at hsh
    unfold run
    simp only [hS]
    refine Triple.bind (Triple.frame (okr hS).first) fun p => ?_
    rw [sep_assoc]
    refine Triple.pure_left fun hp => ?_
    subst hp
    refine ldN_reads (var_reads ha) ?_
    refine Triple.fact (p := r.pay (0) ≠ .node 0) (fun h hh => (okr hS).node0 h _ hh _ (by omega)) fun hn0 => ?_
    refine with_raw ha hnn fun R e2 => ?_
    refine setIter_cps (okr hS).ty0 hn0 ?_
    refine Triple.ret ?_
    exact fin (.first hx hnn hsh) (map_set hm) (put hS (by omega) e2)
  | @last s d x sh hx hnn hsh =>
    obtain ⟨a, ha⟩ := var_at hm hx
    obtain ⟨r, hS, rfl⟩ := src_at hsh
    unfold run
    simp only [hS]
    refine Triple.bind (Triple.frame (okr hS).last) fun p => ?_
    rw [sep_assoc]
    refine Triple.pure_left fun hp => ?_
    subst hp
    refine ldN_reads (var_reads ha) ?_
    refine Triple.fact (p := r.pay (r.len) ≠ .node 0) (fun h hh => (okr hS).node0 h _ hh _ (by omega)) fun hn0 => ?_
    refine with_raw ha hnn fun R e2 => ?_
    refine setIter_cps (okr hS).ty0 hn0 ?_
    refine Triple.ret ?_
    exact fin (.last hx hnn hsh) (map_set hm) (put hS (by omega) e2)
  | @copy d e s i o hd he =>
    obtain ⟨a, ha⟩ := var_at hm hd
    obtain ⟨b, hb⟩ := var_at hm he
    unfold run
    refine ldN_reads (var_reads hb) ?_
    refine copy_cps hm ha hb (fun ys' hm' => ?_) (fun hn => ?_)
    · exact Triple.ret (fin (.copy hd he) hm' (ent_refl _))
    · exact Triple.ret (fin (.copyFail hn hd he) hm (ent_refl _))
  | @copyFail d e s i o hn hd he =>
    obtain ⟨a, ha⟩ := var_at hm hd
    obtain ⟨b, hb⟩ := var_at hm he
    unfold run
    refine ldN_reads (var_reads hb) ?_
    refine copy_cps hm ha hb (fun ys' hm' => ?_) (fun hn => ?_)
    · exact Triple.ret (fin (.copy hd he) hm' (ent_refl _))
    · exact Triple.ret (fin (.copyFail hn hd he) hm (ent_refl _))
  | @copyBusy d e x s i o hd hnn he =>
    obtain ⟨a, ha⟩ := var_at hm hd
    obtain ⟨b, hb⟩ := var_at hm he
    unfold run
    refine ldN_reads (var_reads hb) ?_
    refine nonnull ha hnn fun h0 => ?_
    refine vp_ne ha fun hv0 => ?_
    refine with_it hb fun r hS hle hit => ?_
    unfold cCopy allocAndCopy
    simp only [bind_assoc]
    refine hit.opsOf ?_
    rw [if_neg hv0, bind_assoc]
    refine ldN_reads (var_reads ha) ?_
    rw [if_pos h0, pure_bind]
    exact Triple.ret (fin (.copyBusy hd hnn he) hm (ent_refl _))
  | @assign d e s i o s' i' o' sh sh' hd he hs hs' hk ht =>
    obtain ⟨a, ha⟩ := var_at hm hd
    obtain ⟨b, hb⟩ := var_at hm he
    obtain ⟨r, hS, rfl⟩ := src_at hs
    obtain ⟨r', hS', rfl⟩ := src_at hs'
    unfold run
    refine ldN_reads (var_reads ha) ?_
    refine ldN_reads (var_reads hb) ?_
    refine assign_cps hm ha hb hS hS' (fun h1 h2 ys' hm' => ?_) (fun _ => ht) (fun h => absurd hk h)
    exact Triple.ret (fin (.assign hd he hs hs' hk ht) hm' (ent_refl _))
  | @assignOther d e s i o s' i' o' sh sh' hd he hs hs' hk =>
    obtain ⟨a, ha⟩ := var_at hm hd
    obtain ⟨b, hb⟩ := var_at hm he
    obtain ⟨r, hS, rfl⟩ := src_at hs
    obtain ⟨r', hS', rfl⟩ := src_at hs'
    unfold run
    refine ldN_reads (var_reads ha) ?_
    refine ldN_reads (var_reads hb) ?_
    refine assign_cps hm ha hb hS hS' (fun h => absurd h hk) (fun h => absurd h hk) (fun _ => ?_)
    exact Triple.ret (fin (.assignOther hd he hs hs' hk) hm (ent_refl _))
  | @coCopy d e s i o hd he =>
    obtain ⟨a, ha⟩ := var_at hm hd
    obtain ⟨b, hb⟩ := var_at hm he
    unfold run
    refine ldN_reads (var_reads hb) ?_
    refine vp_ne ha fun hv0 => ?_
    refine null_zero ha fun h0 => ?_
    unfold copyOrAssign
    rw [if_neg hv0, bind_assoc]
    refine ldN_reads (var_reads ha) ?_
    rw [if_pos h0]
    refine copy_cps hm ha hb (fun ys' hm' => ?_) (fun hn => ?_)
    · exact Triple.ret (fin (.coCopy hd he) hm' (ent_refl _))
    · exact Triple.ret (fin (.coCopyFail hn hd he) hm (ent_refl _))
  | @coCopyFail d e s i o hn hd he =>
    obtain ⟨a, ha⟩ := var_at hm hd
    obtain ⟨b, hb⟩ := var_at hm he
    unfold run
    refine ldN_reads (var_reads hb) ?_
    refine vp_ne ha fun hv0 => ?_
    refine null_zero ha fun h0 => ?_
    unfold copyOrAssign
    rw [if_neg hv0, bind_assoc]
    refine ldN_reads (var_reads ha) ?_
    rw [if_pos h0]
    refine copy_cps hm ha hb (fun ys' hm' => ?_) (fun hn => ?_)
    · exact Triple.ret (fin (.coCopy hd he) hm' (ent_refl _))
    · exact Triple.ret (fin (.coCopyFail hn hd he) hm (ent_refl _))
  | @coAssign d e s i o s' i' o' sh sh' hd he hs hs' hk ht =>
    obtain ⟨a, ha⟩ := var_at hm hd
    obtain ⟨b, hb⟩ := var_at hm he
    obtain ⟨r, hS, rfl⟩ := src_at hs
    obtain ⟨r', hS', rfl⟩ := src_at hs'
    unfold run
    refine ldN_reads (var_reads hb) ?_
    refine nonnull ha (by simp) fun h0 => ?_
    refine vp_ne ha fun hv0 => ?_
    unfold copyOrAssign
    rw [if_neg hv0, bind_assoc]
    refine ldN_reads (var_reads ha) ?_
    rw [if_neg h0, bind_assoc]
    refine assign_cps hm ha hb hS hS' (fun h1 h2 ys' hm' => ?_) (fun _ => ht) (fun h => absurd hk h)
    exact Triple.ret (fin (.coAssign hd he hs hs' hk ht) hm' (ent_refl _))
  | @coAssignOther d e s i o s' i' o' sh sh' hd he hs hs' hk =>
    obtain ⟨a, ha⟩ := var_at hm hd
    obtain ⟨b, hb⟩ := var_at hm he
    obtain ⟨r, hS, rfl⟩ := src_at hs
    obtain ⟨r', hS', rfl⟩ := src_at hs'
    unfold run
    refine ldN_reads (var_reads hb) ?_
    refine nonnull ha (by simp) fun h0 => ?_
    refine vp_ne ha fun hv0 => ?_
    unfold copyOrAssign
    rw [if_neg hv0, bind_assoc]
    refine ldN_reads (var_reads ha) ?_
    rw [if_neg h0, bind_assoc]
    refine assign_cps hm ha hb hS hS' (fun h => absurd h hk) (fun h => absurd h hk) (fun _ => ?_)
    exact Triple.ret (fin (.coAssignOther hd he hs hs' hk) hm (ent_refl _))
  | @inc d s i o sh hd hs hi =>
    obtain ⟨a, ha⟩ := var_at hm hd
    obtain ⟨r, hS, rfl⟩ := src_at hs
    unfold run
    refine ldN_reads (var_reads ha) ?_
    refine with_at ha hS fun R e2 hle => ?_
    refine cInc_cps (okr hS) hi ?_
    refine Triple.ret ?_
    refine fin (.inc hd hs hi) (map_set hm) (put hS hi e2)
  | @dec d s i o sh hd hs hb =>
    obtain ⟨a, ha⟩ := var_at hm hd
    obtain ⟨r, hS, rfl⟩ := src_at hs
    unfold run
    refine ldN_reads (var_reads ha) ?_
    refine with_at ha hS fun R e2 hle => ?_
    refine cDec_cps (okr hS) hb hle ?_
    refine Triple.ret ?_
    refine fin (.dec hd hs hb) (map_set hm) (put hS (Nat.le_of_lt hle) e2)
  | @postInc d t s i o sh hd ht hs hi =>
    obtain ⟨a, ha⟩ := var_at hm hd
    obtain ⟨c, hc⟩ := var_at hm ht
    obtain ⟨r, hS, rfl⟩ := src_at hs
    unfold run
    refine ldN_reads (var_reads ha) ?_
    refine with_it ha fun r2 hS2 hle hit => ?_
    obtain rfl : r = r2 := by rw [hS] at hS2; exact Option.some.inj hS2
    unfold cPostInc
    rw [bind_assoc]
    refine hit.opsOf ?_
    rw [postIncrement_eq]
    refine postNull_cps hm ha hc hS hi ((okr hS).next i hi) (fun q hq ys' hm' => ?_) (fun hn ys' hm' => ?_)
    · rw [show (q == 0) = false by simpa using hq]
      exact Triple.ret (fin (.postInc hd ht hs hi) hm' (ent_refl _))
    · exact Triple.ret (fin (.postIncFail hn hd ht hs hi) hm' (ent_refl _))
  | @postIncFail d t s i o sh hn hd ht hs hi =>
    obtain ⟨a, ha⟩ := var_at hm hd
    obtain ⟨c, hc⟩ := var_at hm ht
    obtain ⟨r, hS, rfl⟩ := src_at hs
    unfold run
    refine ldN_reads (var_reads ha) ?_
    refine with_it ha fun r2 hS2 hle hit => ?_
    obtain rfl : r = r2 := by rw [hS] at hS2; exact Option.some.inj hS2
    unfold cPostInc
    rw [bind_assoc]
    refine hit.opsOf ?_
    rw [postIncrement_eq]
    refine postNull_cps hm ha hc hS hi ((okr hS).next i hi) (fun q hq ys' hm' => ?_) (fun hn ys' hm' => ?_)
    · rw [show (q == 0) = false by simpa using hq]
      exact Triple.ret (fin (.postInc hd ht hs hi) hm' (ent_refl _))
    · exact Triple.ret (fin (.postIncFail hn hd ht hs hi) hm' (ent_refl _))
  | @postIncTo d t s i o s' i' o' sh sh' hdt hd ht hs hs' hk hty hi =>
    obtain ⟨a, ha⟩ := var_at hm hd
    obtain ⟨c, hc⟩ := var_at hm ht
    obtain ⟨r, hS, rfl⟩ := src_at hs
    obtain ⟨r', hS', rfl⟩ := src_at hs'
    unfold run
    refine ldN_reads (var_reads ha) ?_
    refine with_it ha fun r2 hS2 hle hit => ?_
    obtain rfl : r = r2 := by rw [hS] at hS2; exact Option.some.inj hS2
    unfold cPostInc
    rw [bind_assoc]
    refine hit.opsOf ?_
    rw [postIncrement_eq]
    refine postTo_cps hm hdt ha hc hS hS' hk hty hi ((okr hS).next i hi) (fun q hq ys' hm' => ?_)
    rw [show (q == 0) = false by simpa using hq]
    exact Triple.ret (fin (.postIncTo hdt hd ht hs hs' hk hty hi) hm' (ent_refl _))
  | @postDec d t s i o sh hd ht hs hi =>
    obtain ⟨a, ha⟩ := var_at hm hd
    obtain ⟨c, hc⟩ := var_at hm ht
    obtain ⟨r, hS, rfl⟩ := src_at hs
    unfold run
    refine ldN_reads (var_reads ha) ?_
    refine with_it ha fun r2 hS2 hle hit => ?_
    obtain rfl : r = r2 := by rw [hS] at hS2; exact Option.some.inj hS2
    unfold cPostDec
    rw [bind_assoc]
    refine hit.opsOf ?_
    rw [if_neg hi]
    rw [postDecrement_eq]
    refine postNull_cps hm ha hc hS (Nat.le_of_lt hle) ((okr hS).prev hi i hle) (fun q hq ys' hm' => ?_) (fun hn ys' hm' => ?_)
    · rw [show (q == 0) = false by simpa using hq]
      exact Triple.ret (fin (.postDec hd ht hs hi) hm' (ent_refl _))
    · exact Triple.ret (fin (.postDecFail hn hd ht hs hi) hm' (ent_refl _))
  | @postDecFail d t s i o sh hn hd ht hs hi =>
    obtain ⟨a, ha⟩ := var_at hm hd
    obtain ⟨c, hc⟩ := var_at hm ht
    obtain ⟨r, hS, rfl⟩ := src_at hs
    unfold run
    refine ldN_reads (var_reads ha) ?_
    refine with_it ha fun r2 hS2 hle hit => ?_
    obtain rfl : r = r2 := by rw [hS] at hS2; exact Option.some.inj hS2
    unfold cPostDec
    rw [bind_assoc]
    refine hit.opsOf ?_
    rw [if_neg hi]
    rw [postDecrement_eq]
    refine postNull_cps hm ha hc hS (Nat.le_of_lt hle) ((okr hS).prev hi i hle) (fun q hq ys' hm' => ?_) (fun hn ys' hm' => ?_)
    · rw [show (q == 0) = false by simpa using hq]
      exact Triple.ret (fin (.postDec hd ht hs hi) hm' (ent_refl _))
    · exact Triple.ret (fin (.postDecFail hn hd ht hs hi) hm' (ent_refl _))
  | @postDecTo d t s i o s' i' o' sh sh' hdt hd ht hs hs' hk hty hi =>
    obtain ⟨a, ha⟩ := var_at hm hd
    obtain ⟨c, hc⟩ := var_at hm ht
    obtain ⟨r, hS, rfl⟩ := src_at hs
    obtain ⟨r', hS', rfl⟩ := src_at hs'
    unfold run
    refine ldN_reads (var_reads ha) ?_
    refine with_it ha fun r2 hS2 hle hit => ?_
    obtain rfl : r = r2 := by rw [hS] at hS2; exact Option.some.inj hS2
    unfold cPostDec
    rw [bind_assoc]
    refine hit.opsOf ?_
    rw [if_neg hi]
    rw [postDecrement_eq]
    refine postTo_cps hm hdt ha hc hS hS' hk hty (Nat.le_of_lt hle) ((okr hS).prev hi i hle) (fun q hq ys' hm' => ?_)
    rw [show (q == 0) = false by simpa using hq]
    exact Triple.ret (fin (.postDecTo hdt hd ht hs hs' hk hty hi) hm' (ent_refl _))
  | @deref d s i o sh hd hs hi =>
    obtain ⟨a, ha⟩ := var_at hm hd
    obtain ⟨r, hS, rfl⟩ := src_at hs
    unfold run
    refine ldN_reads (var_reads ha) ?_
    refine with_it ha fun r' hS' hle hit => ?_
    obtain rfl : r = r' := by rw [hS] at hS'; exact Option.some.inj hS'
    refine cDeref_reads hit ?_
    refine Triple.bind (Triple.frame (okr hS |>.deref i hi)) fun l => ?_
    rw [sep_assoc]
    refine Triple.pure_left fun hl => ?_
    subst hl
    exact Triple.ret (fin (.deref hd hs hi) hm (ent_refl _))
  | @eq d e s i o s' i' o' hd he =>
    obtain ⟨a, ha⟩ := var_at hm hd
    obtain ⟨b, hb⟩ := var_at hm he
    unfold run
    refine ldN_reads (var_reads ha) ?_
    refine ldN_reads (var_reads hb) ?_
    refine with_it ha fun r hS hle hit => ?_
    refine with_it hb fun r' hS' hle' hit' => ?_
    refine cEq_reads hit hit' ?_
    refine Triple.fact (p := (r.kind = r'.kind ∧ r.pay i = r'.pay i') ↔ (s = s' ∧ i = i')) (fun h hh => ?_) fun hiff => ?_
    · exact same_pos hw hS hS' hle hle' hh
    simp only [hiff]
    exact Triple.ret (fin (.eq hd he) hm (ent_refl _))
  | @eqNull d e s i o hd he =>
    obtain ⟨a, ha⟩ := var_at hm hd
    obtain ⟨b, hb⟩ := var_at hm he
    unfold run
    refine ldN_reads (var_reads ha) ?_
    refine ldN_reads (var_reads hb) ?_
    refine null_zero hb fun h0 => ?_
    subst h0
    refine with_it ha fun r hS hle hit => ?_
    refine cEq_null_reads hit ?_
    exact Triple.ret (fin (.eqNull hd he) hm (ent_refl _))
  | @ne d e s i o s' i' o' hd he =>
    obtain ⟨a, ha⟩ := var_at hm hd
    obtain ⟨b, hb⟩ := var_at hm he
    unfold run
    refine ldN_reads (var_reads ha) ?_
    refine ldN_reads (var_reads hb) ?_
    refine with_it ha fun r hS hle hit => ?_
    refine with_it hb fun r' hS' hle' hit' => ?_
    refine cNe_reads hit hit' ?_
    refine Triple.fact (p := (r.kind = r'.kind ∧ r.pay i = r'.pay i') ↔ (s = s' ∧ i = i')) (fun h hh => ?_) fun hiff => ?_
    · exact same_pos hw hS hS' hle hle' hh
    simp only [hiff]
    exact Triple.ret (fin (Step.ne hd he) hm (ent_refl _))
  | @neNull d e s i o hd he =>
    obtain ⟨a, ha⟩ := var_at hm hd
    obtain ⟨b, hb⟩ := var_at hm he
    unfold run
    refine ldN_reads (var_reads ha) ?_
    refine ldN_reads (var_reads hb) ?_
    refine null_zero hb fun h0 => ?_
    subst h0
    refine with_it ha fun r hS hle hit => ?_
    refine cNe_null_reads hit ?_
    exact Triple.ret (fin (.neNull hd he) hm (ent_refl _))
  | @less d e s i o i' o' sh hd he hs hr =>
    obtain ⟨a, ha⟩ := var_at hm hd
    obtain ⟨b, hb⟩ := var_at hm he
    obtain ⟨r, hS, rfl⟩ := src_at hs
    unfold run
    refine ldN_reads (var_reads ha) ?_
    refine ldN_reads (var_reads hb) ?_
    refine with_it ha fun r2 hS2 hle hit => ?_
    obtain rfl : r = r2 := by rw [hS] at hS2; exact Option.some.inj hS2
    refine with_it hb fun r2 hS2 hle' hit' => ?_
    obtain rfl : r = r2 := by rw [hS] at hS2; exact Option.some.inj hS2
    refine cLess_reads hr hit hit' ?_
    refine Triple.bind (Triple.frame ((okr hS).less hr i i' hle hle')) fun l => ?_
    rw [sep_assoc]
    refine Triple.pure_left fun hl => ?_
    subst hl
    exact Triple.ret (fin (.less hd he hs hr) hm (ent_refl _))
  | @advance d s o sh i n hd hs h0 h1 h2 => 
    obtain ⟨a, ha⟩ := var_at hm hd
    obtain ⟨r, hS, rfl⟩ := src_at hs
    unfold run
    refine ldN_reads (var_reads ha) ?_
    refine with_at ha hS fun R e2 hle => ?_
    refine cAdvance_cps (okr hS) hle h0 h1 h2 ?_
    refine Triple.ret ?_
    refine fin (.advance hd hs h0 h1 h2) (map_set hm) (put hS (by omega) e2)
  | @distance d e s o o' i i' hd he hii =>
    obtain ⟨a, ha⟩ := var_at hm hd
    obtain ⟨b, hb⟩ := var_at hm he
    unfold run
    refine ldN_reads (var_reads ha) ?_
    refine ldN_reads (var_reads hb) ?_
    refine with_it ha fun r hS hle hit => ?_
    refine with_it hb fun r2 hS2 hle' hit' => ?_
    obtain rfl : r = r2 := by rw [hS] at hS2; exact Option.some.inj hS2
    refine cDistance_reads hit hit' ?_
    refine Triple.bind (Triple.frame ((okr hS).dist i i' hii hle')) fun l => ?_
    rw [sep_assoc]
    refine Triple.pure_left fun hl => ?_
    subst hl
    exact Triple.ret (fin (.distance hd he hii) hm (ent_refl _))
  | @free d s i hd =>
    obtain ⟨a, ha⟩ := var_at hm hd
    unfold run
    refine ldN_reads (var_reads ha) ?_
    refine with_it ha fun r hS hle hit => ?_
    refine with_at ha hS fun R e2 _ => ?_
    unfold isIt
    call (freeIt)
    intro _
    rw [emp_sep]
    step
    refine Triple.ret (fin (.free hd) (map_set (a := 0) hm) ?_)
    rw [e2]
    unfold one
    dsimp only
    rw [itv_null]
    cancel

end

theorem op_spec {op : Op} (hw : World nf Z C S) (hv : ∃ xs' ob, Step nf (S.map Src.toShape) xs op xs' ob) :
    Triple nf (C ∗ vars S vp xs) (run Z S vp op) (after nf S vp C xs op) := by
  unfold vars
  rw [sep_comm]
  refine Triple.ex_left' fun ys => ?_
  rw [sep_assoc]
  refine Triple.pure_left fun hm => ?_
  rw [sep_comm]
  exact op_spec' hw hm hv

/-- a history does what the specification says -/
theorem runAll_spec (hw : World nf Z C S) {ops : List Op} {xs : List Var} (hv : Allowed nf (S.map Src.toShape) xs ops) :
    Triple nf (C ∗ vars S vp xs) (runAll Z S vp ops) (fun obs => ∃ₛ xs', ⌜Steps nf (S.map Src.toShape) xs ops xs' obs⌝ ∗ C ∗ vars S vp xs') := by
  induction ops generalizing xs with
  | nil =>
    refine Triple.ret ?_
    apply ent_ex_right xs
    exact ent_pure_right .nil (ent_refl _)
  | cons op ops ih =>
    obtain ⟨h1, h2⟩ := hv
    unfold runAll
    refine Triple.bind (op_spec hw h1) fun ob => ?_
    unfold after
    refine Triple.ex_left fun xs' => ?_
    refine Triple.pure_left fun hs => ?_
    refine Triple.bind (ih (h2 xs' ob hs)) fun obs => ?_
    refine Triple.ex_left fun xs'' => ?_
    refine Triple.pure_left fun hs' => ?_
    refine Triple.ret ?_
    apply ent_ex_right xs''
    exact ent_pure_right (.cons hs hs') (ent_refl _)
end CC.Iter
