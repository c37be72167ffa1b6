import Verif.IAlgo.InPlace
import Verif.Props.CInPlace
import Verif.Props.CIterModify
import Verif.Props.CIterAll
/-!
# Property C95 with iterator objects

The algorithms of Props/CInPlace.lean, called with iterator objects of one container `r` (as in C63): the source `vs` is the range of `first` and `last`, the destination begins with `dFirst`, `X.length` positions
further left.
-/
namespace CC.IAlgo
open CC CC.Tac CC.Iter CC.Algo
variable {V : Type} {Z : Nat → Nat} {S A A1 A2 G G1 G2 P : HProp V} {r r2 r3 : Src V} {B B1 B2 : Nat → HProp V} {first last first2 last2 dFirst dFirst2 i j k : Nat} {X vs us ws ys : List V} {value new : Loc}
  {w x : V} {o o2 : IAlgo.Out} {low : Nat → Nat}

private theorem lift_in {m m' : M V (Nat × Nat)} {n e : Nat} {zs : List V} {φ : Nat × Nat → Nat × Nat → Prop} (hl : i + us.length ≤ r.len) (h : RefC (A ∗ S) m m' φ (fun a' _ => B a'.2 ∗ S))
    (hφ : ∀ a' a, φ a' a → a.1 = a'.1) (ht : Triple True (seg r.slots i us ∗ P) m' (fun a => ⌜a = (n, e)⌝ ∗ seg r.slots i zs ∗ P)) :
    Triple True (seg r.ref i us ∗ P ∗ A ∗ S) m (fun a => ⌜a.1 = n⌝ ∗ seg r.ref i zs ∗ P ∗ B e ∗ S) := by
  have := lift_exact h hφ ht
  rw [seg_slots hl, sep_assoc] at this
  refine NEnt.post this fun a => ?_
  rw [sep_assoc]
  exact .sep (.of (ent_refl _)) (.sep .slots (.of (ent_refl _)))

private theorem whole_le (hs : Spans Z S G r first last (i + X.length) vs.length) : i + (X ++ vs).length ≤ r.len := by
  have := hs.le
  rw [List.length_append]
  omega

/-- `algo_copy` -/
theorem C95_iter_copy (hs : Spans Z S G r first last (i + X.length) vs.length) (hd : At G r dFirst i) (hm : r.kind.type < 7) (hlow : ∀ q, q ≠ 0 → 2 ≤ low q) (ho : OutArg r o G A B) :
    Triple True (seg r.ref i (X ++ vs) ∗ P ∗ A ∗ S) (IAlgo.copy low first last dFirst o)
      (fun q => ⌜q.1 = vs.length⌝ ∗ seg r.ref i (over (X ++ vs) vs) ∗ P ∗ B (i + vs.length) ∗ S) := by
  have := lift_exact (copy_ref hs.ok (Nat.le_add_right ..) hs.le (ho.mono hs.fst) (ho.mono hs.lst) hs.ok hm (ho.mono hd) (by have := hs.le; omega) hlow ho.ok) (fun _ _ h => h.1)
    (C95_copy (nf := True) (P := P) (c := r.ref) (i := i) (X := X) (vs := vs))
  simpa only [sep_assoc] using this

/-- `algo_copy_if` -/
theorem C95_iter_copy_if (pred : V → Bool) (hs : Spans Z S G r first last (i + X.length) vs.length) (hd : At G r dFirst i) (hm : r.kind.type < 7) (hlow : ∀ q, q ≠ 0 → 2 ≤ low q) (ho : OutArg r o G A B) :
    Triple True (seg r.ref i (X ++ vs) ∗ P ∗ A ∗ S) (IAlgo.copyIf low first last dFirst o pred)
      (fun q => ⌜q.1 = (vs.filter pred).length⌝ ∗ seg r.ref i (over (X ++ vs) (vs.filter pred)) ∗ P ∗ B (i + (vs.filter pred).length) ∗ S) := by
  refine lift_in (whole_le hs) (copyIf_ref hs.ok (Nat.le_add_right ..) hs.le (ho.mono hs.fst) (ho.mono hs.lst) hs.ok hm (ho.mono hd) (by have := hs.le; omega) hlow ho.ok) (fun _ _ h => h.1) ?_
  rw [copyIf_agree (Nat.le_add_right ..) (agree_slots hs.le)]
  exact C95_copy_if pred

/-- `algo_remove_copy` -/
theorem C95_iter_remove_copy (E : Nat → V → V → Bool) (hv : value.1 ≠ 0) (hw : Reads P value w) (hs : Spans Z S G r first last (i + X.length) vs.length) (hd : At G r dFirst i) (hm : r.kind.type < 7)
    (hlow : ∀ q, q ≠ 0 → 2 ≤ low q) (ho : OutArg r o G A B) :
    Triple True (seg r.ref i (X ++ vs) ∗ P ∗ A ∗ S) (IAlgo.removeCopy low E first last dFirst value o)
      (fun q => ⌜q.1 = (vs.filter fun v => !E r.ty v w).length⌝ ∗ seg r.ref i (over (X ++ vs) (vs.filter fun v => !E r.ty v w)) ∗ P ∗ B (i + (vs.filter fun v => !E r.ty v w).length) ∗ S) := by
  refine lift_in (whole_le hs) (removeCopy_ref hs.ok (Nat.le_add_right ..) hs.le (ho.mono hs.fst) (ho.mono hs.lst) hs.ok hm (ho.mono hd) (by have := hs.le; omega) hv hlow ho.ok) (fun _ _ h => h.1) ?_
  rw [removeCopy_agree (Nat.le_add_right ..) (agree_slots hs.le)]
  exact C95_remove_copy (E r.ty) hw

/-- `algo_remove_copy_if` -/
theorem C95_iter_remove_copy_if (pred : V → Bool) (hs : Spans Z S G r first last (i + X.length) vs.length) (hd : At G r dFirst i) (hlow : ∀ q, q ≠ 0 → 2 ≤ low q) (ho : OutArg r o G A B) :
    Triple True (seg r.ref i (X ++ vs) ∗ P ∗ A ∗ S) (IAlgo.removeCopyIf low first last dFirst o pred)
      (fun q => ⌜q.1 = (vs.filter fun v => !pred v).length⌝ ∗ seg r.ref i (over (X ++ vs) (vs.filter fun v => !pred v)) ∗ P ∗ B (i + (vs.filter fun v => !pred v).length) ∗ S) := by
  refine lift_in (whole_le hs) (removeCopyIf_ref hs.ok (Nat.le_add_right ..) hs.le (ho.mono hs.fst) (ho.mono hs.lst) hs.ok (ho.mono hd) (by have := hs.le; omega) hlow ho.ok) (fun _ _ h => h.1) ?_
  rw [removeCopyIf_agree (Nat.le_add_right ..) (agree_slots hs.le)]
  exact C95_remove_copy_if pred

/-- `algo_replace_copy` -/
theorem C95_iter_replace_copy (E : Nat → V → V → Bool) (hv : value.1 ≠ 0) (hw : Reads P value w) (hv' : new.1 ≠ 0) (hx : Reads P new x) (hs : Spans Z S G r first last (i + X.length) vs.length)
    (hd : At G r dFirst i) (hm : r.kind.type < 7) (hlow : ∀ q, q ≠ 0 → 2 ≤ low q) (ho : OutArg r o G A B) :
    Triple True (seg r.ref i (X ++ vs) ∗ P ∗ A ∗ S) (IAlgo.replaceCopy low E first last dFirst value new o)
      (fun q => ⌜q.1 = vs.length⌝ ∗ seg r.ref i (over (X ++ vs) (vs.map fun v => if E r.ty v w then x else v)) ∗ P ∗ B (i + vs.length) ∗ S) := by
  have := lift_exact (replaceCopy_ref hs.ok (Nat.le_add_right ..) hs.le (ho.mono hs.fst) (ho.mono hs.lst) hs.ok hm (ho.mono hd) (by have := hs.le; omega) hv hv' hlow ho.ok) (fun _ _ h => h.1)
    (C95_replace_copy (nf := True) (P := P) (c := r.ref) (i := i) (X := X) (vs := vs) (E r.ty) hw hx)
  simpa only [sep_assoc] using this

/-- `algo_replace_copy_if` -/
theorem C95_iter_replace_copy_if (pred : V → Bool) (hv' : new.1 ≠ 0) (hx : Reads P new x) (hs : Spans Z S G r first last (i + X.length) vs.length)
    (hd : At G r dFirst i) (hm : r.kind.type < 7) (hlow : ∀ q, q ≠ 0 → 2 ≤ low q) (ho : OutArg r o G A B) :
    Triple True (seg r.ref i (X ++ vs) ∗ P ∗ A ∗ S) (IAlgo.replaceCopyIf low first last dFirst pred new o)
      (fun q => ⌜q.1 = vs.length⌝ ∗ seg r.ref i (over (X ++ vs) (vs.map fun v => if pred v then x else v)) ∗ P ∗ B (i + vs.length) ∗ S) := by
  have := lift_exact (replaceCopyIf_ref hs.ok (Nat.le_add_right ..) hs.le (ho.mono hs.fst) (ho.mono hs.lst) hs.ok hm (ho.mono hd) (by have := hs.le; omega) hv' hlow ho.ok) (fun _ _ h => h.1)
    (C95_replace_copy_if (nf := True) (P := P) (c := r.ref) (i := i) (X := X) (vs := vs) pred hx)
  simpa only [sep_assoc] using this

/-- `algo_transform` -/
theorem C95_iter_transform (D : Nat → V) (op : V → V) (hs : Spans Z S A r first last (i + X.length) vs.length) (hd : At A r dFirst i) (hm : r.kind.type < 7) :
    Triple True (seg r.ref i (X ++ vs) ∗ P ∗ A ∗ S) (IAlgo.transform D first last dFirst op) (fun q => ⌜q = vs.length⌝ ∗ seg r.ref i (over (X ++ vs) (vs.map op)) ∗ P ∗ A ∗ S) := by
  have := lift_fact (transform_ref hs.ok (Nat.le_add_right ..) hs.le hs.fst hs.lst hs.ok hm hd (by have := hs.le; omega) (D := D))
    (C95_transform (nf := True) (P := P) (c := r.ref) (i := i) (X := X) (vs := vs) op)
  simpa only [sep_assoc] using this

/-- `algo_unique_copy_by` (the result must be wanted, see C48) -/
theorem C95_iter_unique_copy (pred : V → V → Bool) (hs : Spans Z S G r first last (i + X.length) vs.length) (hd : At G r dFirst i) (hm : r.kind.type < 7) (hwant : o.isNull = false)
    (hlow : ∀ q, q ≠ 0 → 2 ≤ low q) (ho : OutArg r o G A B) :
    Triple True (seg r.ref i (X ++ vs) ∗ P ∗ A ∗ S) (IAlgo.uniqueCopy low first last dFirst o pred)
      (fun q => ⌜q.1 = (uniq pred vs).length⌝ ∗ seg r.ref i (over (X ++ vs) (uniq pred vs)) ∗ P ∗ B (i + (uniq pred vs).length) ∗ S) := by
  refine lift_in (whole_le hs) (uniqueCopy_ref hs.ok (Nat.le_add_right ..) hs.le (ho.mono hs.fst) (ho.mono hs.lst) hs.ok hm (ho.mono hd) (by have := hs.le; omega) hlow ho.ok (ho.in hd) hwant)
    (fun _ _ h => h.1) ?_
  rw [uniqueCopy_agree (Nat.le_add_right ..) (agree_slots hs.le)]
  exact C95_unique_copy pred

/-- `algo_partition_copy`, the elements that satisfy the predicate within the container -/
theorem C95_iter_partition_copy (pred : V → Bool) (hs : Spans Z S (G1 ∗ G2) r first last (i + X.length) vs.length) (hd : At (G1 ∗ G2) r dFirst i) (hd2 : Stands Z S (G1 ∗ G2) r3 dFirst2 k ws.length)
    (hm : r.kind.type < 7) (hm3 : r3.kind.type < 7) (hl : (vs.filter fun v => !pred v).length ≤ ws.length) (ho : OutArg r o G1 A1 B1) (ho2 : OutArg r3 o2 G2 A2 B2) :
    Triple True (seg r.ref i (X ++ vs) ∗ seg r3.ref k ws ∗ P ∗ A1 ∗ A2 ∗ S) (IAlgo.partitionCopy first last dFirst dFirst2 o o2 pred)
      (fun q => ⌜q.1 = vs.length⌝ ∗ seg r.ref i (over (X ++ vs) (vs.filter pred)) ∗ seg r3.ref k (over ws (vs.filter fun v => !pred v)) ∗ P ∗ B1 (i + (vs.filter pred).length) ∗
        B2 (k + (vs.filter fun v => !pred v).length) ∗ S) := by
  have ht := C95_partition_copy (nf := True) (P := P) (c := r.slots) (i := i) (X := X) (vs := vs) (d := r3.slots) (j := k) (ws := ws) pred hl
  rw [← partitionCopy_agree (Nat.le_add_right ..) (agree_slots hs.le)] at ht
  have := lift_exact2 (partitionCopy_ref hs.ok (Nat.le_add_right ..) hs.le (ho.mono2 ho2 hs.fst) (ho.mono2 ho2 hs.lst) hs.ok hd2.ok (by have := hs.le; omega) (by have := hd2.le; omega)
    (ho.mono2 ho2 hd) (ho.mono2 ho2 hd2.at_) hm hm3 ho.ok2 (ho2.okR (A1 := A1)).chk' (fun k _ => ho2.okR)) (fun _ _ h => h.1) ht
  rw [seg_slots (whole_le hs), seg_slots hd2.le] at this
  simp only [sep_assoc] at this
  refine NEnt.post this fun a => ?_
  exact .sep (.of (ent_refl _)) (.sep .slots (.sep .slots (.of (ent_refl _))))

/-- `algo_set_intersection_by` -/
theorem C95_iter_set_intersection (comp : V → V → Bool) (hsw : StrictWeak comp) (hs : Spans Z S G r first last (i + X.length) vs.length) (hs2 : Spans Z S G r2 first2 last2 j ys.length) (hR : Rng P r2.ref j ys)
    (hx : Sorted comp vs) (hy : Sorted comp ys) (hd : At G r dFirst i) (hm : r.kind.type < 7) (ho : OutArg r o G A B) :
    Triple True (P ∗ seg r.ref i (X ++ vs) ∗ A ∗ S) (IAlgo.setIntersection first last first2 last2 dFirst o comp)
      (fun q => ∃ₛ zs, ⌜IsIntersection comp vs ys zs ∧ q.1 = zs.length⌝ ∗ P ∗ seg r.ref i (over (X ++ vs) zs) ∗ B (i + zs.length) ∗ S) := by
  have ht := C95_set_intersection (nf := True) (P := P) (c := r.slots) (i := i) (X := X) (vs := vs) (comp := comp) hsw hR hx hy
  rw [← setIntersection_agree (Nat.le_add_right ..) (Nat.le_add_right ..) (agree_slots hs.le)] at ht
  refine lift_zs (f := fun zs => over (X ++ vs) zs) (whole_le hs) (setIntersection_ref hs.ok hs2.ok (Nat.le_add_right ..) hs.le (Nat.le_add_right ..) hs2.le (ho.mono hs.fst) (ho.mono hs.lst) (ho.mono hs2.fst)
    (ho.mono hs2.lst) hs.ok hm (ho.mono hd) (by have := hs.le; omega) (comp := comp) ho.ok) (fun _ _ h => h.1) (p := fun zs => IsIntersection comp vs ys zs) ?_
  refine Triple.conseq ht (by cancel) fun q => ?_
  refine ent_ex_left fun zs => ent_ex_right zs ?_
  cancel

/-- `algo_set_difference_by` -/
theorem C95_iter_set_difference (comp : V → V → Bool) (hsw : StrictWeak comp) (hs : Spans Z S G r first last (i + X.length) vs.length) (hs2 : Spans Z S G r2 first2 last2 j ys.length) (hR : Rng P r2.ref j ys)
    (hy : Sorted comp ys) (hd : At G r dFirst i) (hm : r.kind.type < 7) (hlow : ∀ q, q ≠ 0 → 2 ≤ low q) (ho : OutArg r o G A B) :
    Triple True (seg r.ref i (X ++ vs) ∗ P ∗ A ∗ S) (IAlgo.setDifference low first last first2 last2 dFirst o comp)
      (fun q => ⌜q.1 = (struck comp vs ys).length⌝ ∗ seg r.ref i (over (X ++ vs) (struck comp vs ys)) ∗ P ∗ B (i + (struck comp vs ys).length) ∗ S) := by
  refine lift_in (whole_le hs) (setDifference_ref hs.ok hs2.ok (Nat.le_add_right ..) hs.le (Nat.le_add_right ..) hs2.le (ho.mono hs.fst) (ho.mono hs.lst) (ho.mono hs2.fst) (ho.mono hs2.lst)
    hs.ok hm (ho.mono hd) (by have := hs.le; omega) (comp := comp) hlow ho.ok) (fun _ _ h => h.1) ?_
  rw [setDifference_agree (Nat.le_add_right ..) (Nat.le_add_right ..) (agree_slots hs.le)]
  exact C95_set_difference hsw hR hy

/-- In a concrete memory: removing 8 from the elements 7, 8, 9 of the vector 7, 7, 8, 9, with the result in the same vector from its begin on; the vector is 7, 9, 8, 9 afterwards. -/
example : ∃ (m m' : Mem Nat) (v b x y d : Addr) (F : HProp Nat) (k : Nat × Nat),
    (Vec.isVec (T := fun _ => plainOps Vec.intTy) (ty := 1) (plainSpec (nf := True) Vec.intTy) v b 4 [7, 7, 8, 9] ∗ It (vecSrc v b 1 4) x 1 ∗ It (vecSrc v b 1 4) y 4 ∗ It (vecSrc v b 1 4) d 0 ∗ F) m.cells ∧
    removeCopyIf (fun _ => 8) x y d (.var (0, 0)) (fun a => a == 8) m = some (.ok (k, m')) ∧ k.1 = 2 ∧
    (Vec.isVec (T := fun _ => plainOps Vec.intTy) (ty := 1) (plainSpec (nf := True) Vec.intTy) v b 4 [7, 9, 8, 9] ∗ It (vecSrc v b 1 4) x 1 ∗ It (vecSrc v b 1 4) y 4 ∗ It (vecSrc v b 1 4) d 0 ∗ F) m'.cells := by
  obtain ⟨m, ho, hm⟩ := exists_array [7, 7, 8, 9] (fun _ => 1)
  have ho : ∀ t, m.orc t ≠ 0 := fun t => by rw [ho]; simp
  have hm := Vec.plain_live (nf := True) (t := Vec.intTy) _ hm
  obtain ⟨m, v, b, ho, hm⟩ := more_vec (F := emp) (vs := [7, 7, 8, 9]) (ty := 1) Vec.intTy (by omega) (by simp) ho (by rw [sep_emp]; exact hm)
  have hw := vec_view (nf := True) (Z := fun _ => 4) (t := Vec.intTy) (ty := 1) (v := v) (b := b) (cap := 4) (n := 4) (by omega) (by omega) (by omega)
  have e1 := hw.eq [7, 7, 8, 9] rfl
  have e2 := hw.eq [7, 9, 8, 9] rfl
  simp only [List.length_cons, List.length_nil] at hm
  rw [e1] at hm
  obtain ⟨m, d, y, ho, hm⟩ := more_its hw.ok ho ((show _ ⊢ₛ _ by cancel) _ hm)
  obtain ⟨m, x, y', ho, hm⟩ := more_its hw.ok ho ((show _ ⊢ₛ _ by cancel) _ hm)
  have hinc := cInc_cps (F := emp) (a := x) (K := fun _ => (pure () : M Nat Unit)) (Q := fun _ => It (vecSrc v b 1 4) x 1 ∗ vecS 1 v b 4 4 ∗ emp) hw.ok (show 0 < (vecSrc (V := Nat) v b 1 4).len from (by decide : 0 < 4)) (Triple.ret (ent_refl _))
  obtain ⟨_, m, _, ho', hm⟩ := hinc.run (s := m) (fun _ => ho) ((show _ ⊢ₛ _ by unfold It; cancel) _ hm)
  have ho : ∀ t, m.orc t ≠ 0 := fun t => by rw [ho']; exact ho t
  have h := C95_iter_remove_copy_if (P := emp) (o := .var (0, 0)) (low := fun _ => 8) (Z := fun _ => 4) (i := 0) (X := [7]) (vs := [7, 8, 9]) (G := It (vecSrc v b 1 4) x 1 ∗ It (vecSrc v b 1 4) y 4 ∗ It (vecSrc v b 1 4) d 0)
    (fun a => a == 8) ⟨hw.ok, (by decide : 0 + 1 + 3 ≤ 4), ⟨_, by cancel⟩, ⟨It (vecSrc v b 1 4) x 1 ∗ It (vecSrc v b 1 4) d 0, by cancel⟩⟩ ⟨It (vecSrc v b 1 4) x 1 ∗ It (vecSrc v b 1 4) y 4, by cancel⟩
    (fun _ _ => by simp) .null
  simp only [show (vecSrc (V := Nat) v b 1 4).len = 4 from rfl, It] at hm h
  simp only [List.singleton_append] at h
  obtain ⟨k, m', hr, _, hq⟩ := h.run (s := m) (fun _ => ho) ((show _ ⊢ₛ _ by cancel) _ hm)
  rw [sep_assoc, hpure_sep_apply] at hq
  obtain ⟨hk, hq⟩ := hq
  refine ⟨m, m', v, b, x, y, d, It (vecSrc v b 1 4) y' 4 ∗ live (plainSpec (nf := True) Vec.intTy) 1 1 [7, 7, 8, 9], k, ?_, hr, hk, ?_⟩
  · rw [e1]
    exact (show _ ⊢ₛ _ by simp only [It]; cancel) _ hm
  · rw [e2]
    exact (show _ ⊢ₛ _ by simp only [It]; cancel) _ hq

end CC.IAlgo
