import Verif.IAlgo.Views
import Verif.IAlgo.ModifyRef
import Verif.IAlgo.SetOpRef
import Verif.IAlgo.PartitionRef
import Verif.Props.CModify
import Verif.Props.CSort
/-!
# Property C63: the modifying algorithms, called with iterator objects

As for C62 (Props/CIterAlgo.lean).  The elements of the ranges are given by `seg r.ref i vs` (the slots at the positions `i`, … of the container `r` hold `vs`).  `low` are the bits of a pointer that
the assertions of c_modifying.c take for the category of an iterator (Verif/IAlgo/Base.lean); the hypothesis `hlow` says that these assertions pass (see C66).  `r.kind.type < 7`: the container is not
a tree, whose elements must not be modified.
A concrete memory in which all the hypotheses of these theorems hold is constructed in Verif/Props/CIterAll.lean (`exists_call`), together with programs of clients that establish them (`whole`).
-/
namespace CC.IAlgo
open CC CC.Tac CC.Iter CC.Algo
variable {V : Type} {Z : Nat → Nat} {S A A1 A2 G G1 G2 P : HProp V} {r r2 r3 : Src V} {B B1 B2 : Nat → HProp V} {first last first2 last2 dFirst dFirst2 i j k : Nat} {vs us ws : List V} {value new : Loc}
  {w x : V} {o o2 : IAlgo.Out} {low : Nat → Nat}

/-- from the slots of a destination to its elements -/
theorem to_slots {β : Type} {m : M V β} {Q : β → HProp V} {F : HProp V} (hl : j + us.length ≤ r2.len) (h : Triple True ((P ∗ seg r2.slots j us) ∗ F) m Q) :
    Triple True (P ∗ seg r2.ref j us ∗ F) m Q := by
  rw [seg_slots hl, sep_assoc] at h
  exact h

theorem from_slots {a : Prop} {zs : List V} {F : HProp V} : NEnt (⌜a⌝ ∗ (P ∗ seg r2.slots j zs) ∗ F) (⌜a⌝ ∗ P ∗ seg r2.ref j zs ∗ F) := by
  rw [sep_assoc]
  exact .sep (.of (ent_refl _)) (.sep (.of (ent_refl _)) (.sep .slots (.of (ent_refl _))))

theorem lift_zs {m m' : M V (Nat × Nat)} {p : List V → Prop} {φ : Nat × Nat → Nat × Nat → Prop} {f : List V → List V} (hl : j + us.length ≤ r3.len)
    (h : RefC (A ∗ S) m m' φ (fun a' _ => B a'.2 ∗ S)) (hφ : ∀ a' a, φ a' a → a.1 = a'.1)
    (ht : Triple True (P ∗ seg r3.slots j us) m' (fun a => ∃ₛ zs, ⌜p zs ∧ a = (zs.length, j + zs.length)⌝ ∗ P ∗ seg r3.slots j (f zs))) :
    Triple True (P ∗ seg r3.ref j us ∗ A ∗ S) m (fun a => ∃ₛ zs, ⌜p zs ∧ a.1 = zs.length⌝ ∗ P ∗ seg r3.ref j (f zs) ∗ B (j + zs.length) ∗ S) := by
  refine to_slots hl ?_
  refine NEnt.post (h.lift ht) fun a => ?_
  rintro s hn ⟨a', hs⟩
  rw [hpure_sep_apply] at hs
  obtain ⟨hf, hs⟩ := hs
  obtain ⟨s1, s2, hd, he, ⟨zs, h1⟩, h2⟩ := hs
  rw [hpure_sep_apply] at h1
  obtain ⟨⟨hp, rfl⟩, h1⟩ := h1
  refine ⟨zs, hpure_sep_apply.2 ⟨⟨hp, hφ _ _ hf⟩, ?_⟩⟩
  have : ((P ∗ seg r3.slots j (f zs)) ∗ B (j + zs.length) ∗ S) s := ⟨s1, s2, hd, he, h1, h2⟩
  rw [sep_assoc] at this
  exact NEnt.sep (.of (ent_refl _)) (.sep .slots (.of (ent_refl _))) s hn this

/-- `algo_copy` into a separate destination -/
theorem C63_copy  (hs : Spans Z S G r first last i vs.length) (h : Rng P r.ref i vs)
    (hd : Stands Z S G r2 dFirst j us.length) (hm : r2.kind.type < 7) (hl : vs.length ≤ us.length) (hlow : ∀ q, q ≠ 0 → 2 ≤ low q) (ho : OutArg r2 o G A B) :
    Triple True (P ∗ seg r2.ref j us ∗ A ∗ S) (IAlgo.copy low first last dFirst o)
      (fun q => ⌜q.1 = vs.length⌝ ∗ P ∗ seg r2.ref j (over us vs) ∗ B (j + vs.length) ∗ S) := by
  have := lift_exact (copy_ref hs.ok (Nat.le_add_right ..) hs.le (ho.mono hs.fst) (ho.mono hs.lst) hd.ok hm (ho.mono hd.at_) (by have := hd.le; omega) hlow ho.ok) (fun _ _ h => h.1) (C48_copy h hl)
  simpa only [sep_assoc] using this

/-- `algo_copy_if` -/
theorem C63_copy_if (pred : V → Bool) (hs : Spans Z S G r first last i vs.length) (h : Rng P r.ref i vs)
    (hd : Stands Z S G r2 dFirst j us.length) (hm : r2.kind.type < 7) (hl : (vs.filter pred).length ≤ us.length) (hlow : ∀ q, q ≠ 0 → 2 ≤ low q) (ho : OutArg r2 o G A B) :
    Triple True (P ∗ seg r2.ref j us ∗ A ∗ S) (IAlgo.copyIf low first last dFirst o pred)
      (fun q => ⌜q.1 = (vs.filter pred).length⌝ ∗ P ∗ seg r2.ref j (over us (vs.filter pred)) ∗ B (j + (vs.filter pred).length) ∗ S) := by
  refine to_slots hd.le (NEnt.post (lift_exact (copyIf_ref hs.ok (Nat.le_add_right ..) hs.le (ho.mono hs.fst) (ho.mono hs.lst) hd.ok hm (ho.mono hd.at_) (by have := hd.le; omega) hlow ho.ok) (fun _ _ h => h.1) (C48_copy_if pred h hl)) fun a => ?_)
  exact from_slots

/-- `algo_remove_copy` -/
theorem C63_remove_copy (E : Nat → V → V → Bool) (hv : value.1 ≠ 0) (hw : Reads P value w) (hs : Spans Z S G r first last i vs.length) (h : Rng P r.ref i vs)
    (hd : Stands Z S G r2 dFirst j us.length) (hm : r2.kind.type < 7) (hl : (vs.filter fun v => !E r.ty v w).length ≤ us.length) (hlow : ∀ q, q ≠ 0 → 2 ≤ low q) (ho : OutArg r2 o G A B) :
    Triple True (P ∗ seg r2.ref j us ∗ A ∗ S) (IAlgo.removeCopy low E first last dFirst value o)
      (fun q => ⌜q.1 = (vs.filter fun v => !E r.ty v w).length⌝ ∗ P ∗ seg r2.ref j (over us (vs.filter fun v => !E r.ty v w)) ∗ B (j + (vs.filter fun v => !E r.ty v w).length) ∗ S) := by
  refine to_slots hd.le (NEnt.post (lift_exact (removeCopy_ref hs.ok (Nat.le_add_right ..) hs.le (ho.mono hs.fst) (ho.mono hs.lst) hd.ok hm (ho.mono hd.at_) (by have := hd.le; omega) hv hlow ho.ok) (fun _ _ h => h.1) (C48_remove_copy (E r.ty) h hw hl)) fun a => ?_)
  exact from_slots

/-- `algo_remove_copy_if` -/
theorem C63_remove_copy_if (pred : V → Bool) (hs : Spans Z S G r first last i vs.length) (h : Rng P r.ref i vs)
    (hd : Stands Z S G r2 dFirst j us.length) (hl : (vs.filter fun v => !pred v).length ≤ us.length) (hlow : ∀ q, q ≠ 0 → 2 ≤ low q) (ho : OutArg r2 o G A B) :
    Triple True (P ∗ seg r2.ref j us ∗ A ∗ S) (IAlgo.removeCopyIf low first last dFirst o pred)
      (fun q => ⌜q.1 = (vs.filter fun v => !pred v).length⌝ ∗ P ∗ seg r2.ref j (over us (vs.filter fun v => !pred v)) ∗ B (j + (vs.filter fun v => !pred v).length) ∗ S) := by
  refine to_slots hd.le (NEnt.post (lift_exact (removeCopyIf_ref hs.ok (Nat.le_add_right ..) hs.le (ho.mono hs.fst) (ho.mono hs.lst) hd.ok (ho.mono hd.at_) (by have := hd.le; omega) hlow ho.ok) (fun _ _ h => h.1) (C48_remove_copy_if pred h hl)) fun a => ?_)
  exact from_slots

/-- `algo_replace_copy` -/
theorem C63_replace_copy (E : Nat → V → V → Bool) (hv : value.1 ≠ 0) (hw : Reads P value w) (hv' : new.1 ≠ 0) (hx : Reads P new x) (hs : Spans Z S G r first last i vs.length) (h : Rng P r.ref i vs)
    (hd : Stands Z S G r2 dFirst j us.length) (hm : r2.kind.type < 7) (hl : vs.length ≤ us.length) (hlow : ∀ q, q ≠ 0 → 2 ≤ low q) (ho : OutArg r2 o G A B) :
    Triple True (P ∗ seg r2.ref j us ∗ A ∗ S) (IAlgo.replaceCopy low E first last dFirst value new o)
      (fun q => ⌜q.1 = vs.length⌝ ∗ P ∗ seg r2.ref j (over us (vs.map fun v => if E r.ty v w then x else v)) ∗ B (j + vs.length) ∗ S) := by
  have := lift_exact (replaceCopy_ref hs.ok (Nat.le_add_right ..) hs.le (ho.mono hs.fst) (ho.mono hs.lst) hd.ok hm (ho.mono hd.at_) (by have := hd.le; omega) hv hv' hlow ho.ok) (fun _ _ h => h.1) (C48_replace_copy (E r.ty) h hw hx hl)
  simpa only [sep_assoc] using this

/-- `algo_replace_copy_if` -/
theorem C63_replace_copy_if (pred : V → Bool) (hv' : new.1 ≠ 0) (hx : Reads P new x) (hs : Spans Z S G r first last i vs.length) (h : Rng P r.ref i vs)
    (hd : Stands Z S G r2 dFirst j us.length) (hm : r2.kind.type < 7) (hl : vs.length ≤ us.length) (hlow : ∀ q, q ≠ 0 → 2 ≤ low q) (ho : OutArg r2 o G A B) :
    Triple True (P ∗ seg r2.ref j us ∗ A ∗ S) (IAlgo.replaceCopyIf low first last dFirst pred new o)
      (fun q => ⌜q.1 = vs.length⌝ ∗ P ∗ seg r2.ref j (over us (vs.map fun v => if pred v then x else v)) ∗ B (j + vs.length) ∗ S) := by
  have := lift_exact (replaceCopyIf_ref hs.ok (Nat.le_add_right ..) hs.le (ho.mono hs.fst) (ho.mono hs.lst) hd.ok hm (ho.mono hd.at_) (by have := hd.le; omega) hv' hlow ho.ok) (fun _ _ h => h.1) (C48_replace_copy_if pred h hx hl)
  simpa only [sep_assoc] using this

/-- `algo_reverse_copy` (the source must be bidirectional) -/
theorem C63_reverse_copy (hb : r.kind.bidir) (hs : Spans Z S G r first last i vs.length) (h : Rng P r.ref i vs)
    (hd : Stands Z S G r2 dFirst j us.length) (hm : r2.kind.type < 7) (hl : vs.length ≤ us.length) (hlow : ∀ q, q ≠ 0 → 2 ≤ low q) (ho : OutArg r2 o G A B) :
    Triple True (P ∗ seg r2.ref j us ∗ A ∗ S) (IAlgo.reverseCopy low first last dFirst o)
      (fun q => ⌜q.1 = vs.length⌝ ∗ P ∗ seg r2.ref j (over us vs.reverse) ∗ B (j + vs.length) ∗ S) := by
  have := lift_exact (reverseCopy_ref hs.ok (Nat.le_add_right ..) hs.le (ho.mono hs.fst) (ho.mono hs.lst) hd.ok hm (ho.mono hd.at_) hb (by have := hd.le; omega) hlow ho.ok) (fun _ _ h => h.1) (C48_reverse_copy h hl)
  simpa only [sep_assoc] using this

/-- `algo_unique_copy_by`; if the result is not wanted (`d_last` is NULL) the function does nothing, so here it is -/
theorem C63_unique_copy (pred : V → V → Bool) (hs : Spans Z S G r first last i vs.length) (h : Rng P r.ref i vs)
    (hd : Stands Z S G r2 dFirst j us.length) (hm : r2.kind.type < 7) (hl : (uniq pred vs).length ≤ us.length) (hwant : o.isNull = false) (hlow : ∀ q, q ≠ 0 → 2 ≤ low q) (ho : OutArg r2 o G A B) :
    Triple True (P ∗ seg r2.ref j us ∗ A ∗ S) (IAlgo.uniqueCopy low first last dFirst o pred)
      (fun q => ⌜q.1 = (uniq pred vs).length⌝ ∗ P ∗ seg r2.ref j (over us (uniq pred vs)) ∗ B (j + (uniq pred vs).length) ∗ S) := by
  refine to_slots hd.le (NEnt.post (lift_exact (uniqueCopy_ref hs.ok (Nat.le_add_right ..) hs.le (ho.mono hs.fst) (ho.mono hs.lst) hd.ok hm (ho.mono hd.at_) (by have := hd.le; omega) hlow ho.ok (ho.in hd.at_) hwant) (fun _ _ h => h.1) (C48_unique_copy pred h hl)) fun a => ?_)
  exact from_slots

/-- `algo_copy` to a place further left in the same container -/
theorem C63_copy_left (X : List V) (hs : Spans Z S G r first last (i + X.length) vs.length) (hd : At G r dFirst i) (hm : r.kind.type < 7) (hlow : ∀ q, q ≠ 0 → 2 ≤ low q) (ho : OutArg r o G A B) :
    Triple True (seg r.ref i (X ++ vs) ∗ A ∗ S) (IAlgo.copy low first last dFirst o) (fun q => ⌜q.1 = vs.length⌝ ∗ seg r.ref i (over (X ++ vs) vs) ∗ B (i + vs.length) ∗ S) :=
  lift_exact (copy_ref hs.ok (Nat.le_add_right ..) hs.le (ho.mono hs.fst) (ho.mono hs.lst) hs.ok hm (ho.mono hd) (by have := hs.le; omega) hlow ho.ok) (fun _ _ h => h.1) (C48_copy_left X)

/-- `algo_copy_backward` into a separate destination, whose end `dLast` is given -/
theorem C63_copy_backward (hs : Spans Z S G r first last i vs.length) (h : Rng P r.ref i vs) {dLast : Nat} (hok : r2.Ok True Z S) (hle : j + us.length ≤ r2.len) (hd : At G r2 dLast (j + us.length))
    (hm : r2.kind.type < 7) (hb : r.kind.bidir) (hb2 : r2.kind.bidir) (hl : vs.length ≤ us.length) (hlow : ∀ q, q ≠ 0 → 3 ≤ low q) (ho : OutArg r2 o G A B) :
    Triple True (P ∗ seg r2.ref j us ∗ A ∗ S) (IAlgo.copyBackward low first last dLast o)
      (fun q => ⌜q.1 = vs.length⌝ ∗ P ∗ seg r2.ref j (overBack us vs) ∗ B (j + (us.length - vs.length)) ∗ S) := by
  have := lift_exact (copyBackward_ref hs.ok (Nat.le_add_right ..) hs.le (ho.mono hs.fst) (ho.mono hs.lst) hok hm (ho.mono hd) hb hb2 (by omega) hle hlow ho.ok) (fun _ _ h => h.1) (C48_copy_backward h hl)
  simpa only [sep_assoc] using this

/-- `algo_copy_backward` to a place further right in the same container -/
theorem C63_copy_backward_right (X : List V) (hs : Spans Z S G r first last i vs.length) {dLast : Nat} (hle : i + vs.length + X.length ≤ r.len) (hd : At G r dLast (i + vs.length + X.length))
    (hm : r.kind.type < 7) (hb : r.kind.bidir) (hlow : ∀ q, q ≠ 0 → 3 ≤ low q) (ho : OutArg r o G A B) :
    Triple True (seg r.ref i (vs ++ X) ∗ A ∗ S) (IAlgo.copyBackward low first last dLast o) (fun q => ⌜q.1 = vs.length⌝ ∗ seg r.ref i (overBack (vs ++ X) vs) ∗ B (i + X.length) ∗ S) :=
  lift_exact (copyBackward_ref hs.ok (Nat.le_add_right ..) hs.le (ho.mono hs.fst) (ho.mono hs.lst) hs.ok hm (ho.mono hd) hb hb (by omega) hle hlow ho.ok) (fun _ _ h => h.1) (C48_copy_backward_right X)

/-- `algo_fill` -/
theorem C63_fill (hs : Spans Z S A r first last i us.length) (hm : r.kind.type < 7) (hv : value.1 ≠ 0) (hw : Reads P value w) :
    Triple True (P ∗ seg r.ref i us ∗ A ∗ S) (IAlgo.fill first last value) (fun q => ⌜q = us.length⌝ ∗ P ∗ seg r.ref i (List.replicate us.length w) ∗ A ∗ S) := by
  have := lift_fact (fill_ref hs.ok (Nat.le_add_right ..) hs.le hs.fst hs.lst hm hv) (C48_fill hw)
  simpa only [sep_assoc] using this

/-- `algo_fill_n` -/
theorem C63_fill_n (hs : Stands Z S G r first i us.length) (hm : r.kind.type < 7) (hv : value.1 ≠ 0) (hw : Reads P value w) (hlow : ∀ q, q ≠ 0 → 2 ≤ low q) (ho : OutArg r o G A B) :
    Triple True (P ∗ seg r.ref i us ∗ A ∗ S) (IAlgo.fillN low first us.length value o) (fun _ => P ∗ seg r.ref i (List.replicate us.length w) ∗ B (i + us.length) ∗ S) := by
  have := lift_at (B := B) (fillN_ref hs.ok hs.le (ho.mono hs.at_) hm hv hlow ho.ok) (C48_fill_n hw)
  simpa only [sep_assoc] using this

/-- `algo_transform` into a separate destination -/
theorem C63_transform (D : Nat → V) (op : V → V) (hs : Spans Z S A r first last i vs.length) (h : Rng P r.ref i vs) (hd : Stands Z S A r2 dFirst j us.length) (hm : r2.kind.type < 7) (hl : vs.length ≤ us.length) :
    Triple True (P ∗ seg r2.ref j us ∗ A ∗ S) (IAlgo.transform D first last dFirst op) (fun q => ⌜q = vs.length⌝ ∗ P ∗ seg r2.ref j (over us (vs.map op)) ∗ A ∗ S) := by
  have := lift_fact (transform_ref hs.ok (Nat.le_add_right ..) hs.le hs.fst hs.lst hd.ok hm hd.at_ (by have := hd.le; omega) (D := D)) (C48_transform op h hl)
  simpa only [sep_assoc] using this

/-- `algo_transform` in place -/
theorem C63_transform_in_place (D : Nat → V) (op : V → V) (hs : Spans Z S A r first last i vs.length) (hd : At A r dFirst i) (hm : r.kind.type < 7) :
    Triple True (seg r.ref i vs ∗ A ∗ S) (IAlgo.transform D first last dFirst op) (fun q => ⌜q = vs.length⌝ ∗ seg r.ref i (vs.map op) ∗ A ∗ S) :=
  lift_fact (transform_ref hs.ok (Nat.le_add_right ..) hs.le hs.fst hs.lst hs.ok hm hd (by have := hs.le; omega) (D := D)) (C48_transform_in_place op)

/-- `algo_remove` -/
theorem C63_remove (E : Nat → V → V → Bool) (hs : Spans Z S G r first last i vs.length) (hm : r.kind.type < 7) (hv : value.1 ≠ 0) (hw : Reads P value w) (hlow : ∀ q, q ≠ 0 → 2 ≤ low q) (ho : OutArg r o G A B) :
    Triple True (P ∗ seg r.ref i vs ∗ A ∗ S) (IAlgo.remove low E first last value o)
      (fun q => ⌜q.1 = (vs.filter fun v => E r.ty v w).length⌝ ∗ (P ∗ ∃ₛ T, ⌜T.length = (vs.filter fun v => E r.ty v w).length⌝ ∗ seg r.ref i ((vs.filter fun v => !E r.ty v w) ++ T)) ∗
        B (i + (vs.filter fun v => !E r.ty v w).length) ∗ S) := by
  have := lift_exact (remove_ref hs.ok (Nat.le_add_right ..) hs.le (ho.mono hs.fst) (ho.mono hs.lst) hm hv hlow ho.ok) (fun _ _ h => h.1) (C48_remove (E r.ty) hw)
  rw [sep_assoc] at this
  exact this

/-- `algo_remove_if` -/
theorem C63_remove_if (pred : V → Bool) (hs : Spans Z S G r first last i vs.length) (hm : r.kind.type < 7) (hlow : ∀ q, q ≠ 0 → 2 ≤ low q) (ho : OutArg r o G A B) :
    Triple True (seg r.ref i vs ∗ A ∗ S) (IAlgo.removeIf low first last o pred)
      (fun q => ⌜q.1 = (vs.filter pred).length⌝ ∗ (∃ₛ T, ⌜T.length = (vs.filter pred).length⌝ ∗ seg r.ref i ((vs.filter fun v => !pred v) ++ T)) ∗
        B (i + (vs.filter fun v => !pred v).length) ∗ S) :=
  lift_exact (removeIf_ref hs.ok (Nat.le_add_right ..) hs.le (ho.mono hs.fst) (ho.mono hs.lst) hm hlow ho.ok) (fun _ _ h => h.1) (C48_remove_if pred)

/-- `algo_replace` -/
theorem C63_replace (E : Nat → V → V → Bool) (hs : Spans Z S A r first last i vs.length) (hm : r.kind.type < 7) (hv : value.1 ≠ 0) (hw : Reads P value w) (hv' : new.1 ≠ 0) (hx : Reads P new x) :
    Triple True (P ∗ seg r.ref i vs ∗ A ∗ S) (IAlgo.replace E first last value new)
      (fun q => ⌜q = (vs.filter fun v => E r.ty v w).length⌝ ∗ P ∗ seg r.ref i (vs.map fun v => if E r.ty v w then x else v) ∗ A ∗ S) := by
  have := lift_fact (replace_ref hs.ok (Nat.le_add_right ..) hs.le hs.fst hs.lst hm hv hv') (C48_replace (E r.ty) hw hx)
  simpa only [sep_assoc] using this

/-- `algo_replace_if` -/
theorem C63_replace_if (pred : V → Bool) (hs : Spans Z S A r first last i vs.length) (hm : r.kind.type < 7) (hv' : new.1 ≠ 0) (hx : Reads P new x) :
    Triple True (P ∗ seg r.ref i vs ∗ A ∗ S) (IAlgo.replaceIf first last pred new)
      (fun q => ⌜q = (vs.filter pred).length⌝ ∗ P ∗ seg r.ref i (vs.map fun v => if pred v then x else v) ∗ A ∗ S) := by
  have := lift_fact (replaceIf_ref hs.ok (Nat.le_add_right ..) hs.le hs.fst hs.lst hm hv') (C48_replace_if pred hx)
  simpa only [sep_assoc] using this

/-- `algo_swap_range` -/
theorem C63_swap_range (hs : Spans Z S A r first last i vs.length) (hd : Stands Z S A r2 dFirst j us.length) (hm : r.kind.type < 7) (hm2 : r2.kind.type < 7) (hn : r.Real S) (hn2 : r2.Real S)
    (hl : vs.length = us.length) :
    Triple True (seg r.ref i vs ∗ seg r2.ref j us ∗ A ∗ S) (IAlgo.swapRange first last dFirst) (fun q => ⌜q = vs.length⌝ ∗ seg r.ref i us ∗ seg r2.ref j vs ∗ A ∗ S) := by
  have := lift_fact (swapRange_ref hs.ok (Nat.le_add_right ..) hs.le hs.fst hs.lst hd.ok hm2 hd.at_ hm hn hn2 (by have := hd.le; omega)) (C48_swap_range hl)
  simpa only [sep_assoc] using this

/-- `algo_reverse` -/
theorem C63_reverse (hs : Spans Z S A r first last i vs.length) (hm : r.kind.type < 7) (hb : r.kind.bidir) (hn : r.Real S) :
    Triple True (seg r.ref i vs ∗ A ∗ S) (IAlgo.reverse first last) (fun q => ⌜q = vs.length⌝ ∗ seg r.ref i vs.reverse ∗ A ∗ S) :=
  lift_fact (reverse_ref hs.ok (Nat.le_add_right ..) hs.le hs.fst hs.lst hm hb hn) C48_reverse

/-- `algo_rotate`: the parts `X` and `Y` of the range change places; `nFirst` is the beginning of `Y` -/
theorem C63_rotate (X Y : List V) (hs : Spans Z S G r first last i (X ++ Y).length) {nFirst : Nat} (hf : At G r nFirst (i + X.length)) (hm : r.kind.type < 7) (hn : r.Real S) (hlow : ∀ q, q ≠ 0 → 2 ≤ low q)
    (ho : OutArg r o G A B) :
    Triple True (seg r.ref i (X ++ Y) ∗ A ∗ S) (IAlgo.rotate low first nFirst last o) (fun _ => seg r.ref i (Y ++ X) ∗ B (i + Y.length) ∗ S) := by
  obtain ⟨h1, h2, h3, h4⟩ := hs
  rw [List.length_append, ← Nat.add_assoc] at h2 h4
  exact lift_at (rotate_ref h1 (by omega) h2 (ho.mono h3) (ho.mono h4) hm hn (ho.mono hf) (by omega) (by omega) hlow ho.ok (ho.in h4) (ho.in h3)) (C48_rotate X Y)

/-- `algo_rotate_copy` -/
theorem C63_rotate_copy (X Y : List V) (hs : Spans Z S G r first last i (X ++ Y).length) (h : Rng P r.ref i (X ++ Y)) {nFirst : Nat} (hf : At G r nFirst (i + X.length))
    (hd : Stands Z S G r2 dFirst j us.length) (hm : r2.kind.type < 7) (hl : X.length + Y.length ≤ us.length) (hlow : ∀ q, q ≠ 0 → 2 ≤ low q) (ho : OutArg r2 o G A B) :
    Triple True (P ∗ seg r2.ref j us ∗ A ∗ S) (IAlgo.rotateCopy low first nFirst last dFirst o)
      (fun q => ⌜q.1 = X.length + Y.length⌝ ∗ P ∗ seg r2.ref j (over us (Y ++ X)) ∗ B (j + X.length + Y.length) ∗ S) := by
  obtain ⟨h1, h2, h3, h4⟩ := hs
  rw [List.length_append, ← Nat.add_assoc] at h2 h4
  have := lift_exact (rotateCopy_ref h1 hd.ok (by omega) (by omega) h2 (ho.mono h3) (ho.mono hf) (ho.mono h4) (ho.mono hd.at_) hm (by have := hd.le; omega) hlow ho.ok) (fun _ _ h => h.1) (C48_rotate_copy X Y h hl)
  simpa only [sep_assoc] using this

/-- `algo_unique_by` -/
theorem C63_unique (pred : V → V → Bool) (hs : Spans Z S G r first last i vs.length) (hm : r.kind.type < 7) (hlow : ∀ q, q ≠ 0 → 2 ≤ low q) (ho : OutArg r o G A B) :
    Triple True (seg r.ref i vs ∗ A ∗ S) (IAlgo.unique low first last o pred)
      (fun q => ⌜q.1 = (uniq pred vs).length⌝ ∗ (∃ₛ T, ⌜(uniq pred vs).length + T.length = vs.length⌝ ∗ seg r.ref i (uniq pred vs ++ T)) ∗ B (i + (uniq pred vs).length) ∗ S) :=
  lift_exact (unique_ref hs.ok (Nat.le_add_right ..) hs.le (ho.mono hs.fst) (ho.mono hs.lst) hm hlow ho.ok (ho.in hs.lst)) (fun _ _ h => h.1) (C48_unique pred)

theorem genLoop_spec {gen : Nat → V} {c : Slots} {n : Nat} : Triple True (seg c i us) (genLoop c gen i (i + us.length) n) (fun q => ⌜q = n + us.length⌝ ∗ seg c i ((List.range' n us.length).map gen)) := by
  induction us generalizing i n with
  | nil =>
    rw [genLoop, if_neg (by simp)]
    apply Triple.ret
    simp only [List.length_nil, List.range'_zero, List.map_nil]
    cancel
  | cons u us ih =>
    rw [genLoop, if_pos (by simp), seg_cons]
    unfold wr
    simp only [bind_assoc]
    step
    step
    rw [List.length_cons, show i + (us.length + 1) = i + 1 + us.length by omega, sep_comm]
    refine Triple.conseq (Triple.frame (ih (n := n + 1))) (ent_refl _) fun q => ?_
    rw [List.range'_succ, List.map_cons, seg_cons, show n + (us.length + 1) = n + 1 + us.length by omega]
    cancel

theorem genNLoop_spec {gen : Nat → V} {c : Slots} {n : Nat} : Triple True (seg c i us) (genNLoop c gen i n us.length) (fun q => ⌜q = i + us.length⌝ ∗ seg c i ((List.range' n us.length).map gen)) := by
  induction us generalizing i n with
  | nil =>
    rw [List.length_nil, genNLoop]
    apply Triple.ret
    simp only [List.range'_zero, List.map_nil]
    cancel
  | cons u us ih =>
    rw [List.length_cons, genNLoop, seg_cons]
    unfold wr
    simp only [bind_assoc]
    step
    step
    rw [sep_comm]
    refine Triple.conseq (Triple.frame (ih (n := n + 1))) (ent_refl _) fun q => ?_
    rw [List.range'_succ, List.map_cons, seg_cons, show i + (us.length + 1) = i + 1 + us.length by omega]
    cancel

/-- `algo_generate` on a range that is not empty (an empty range is the defect of C52) -/
theorem C63_generate (gen : Nat → V) (hs : Spans Z S A r first last i us.length) (hm : r.kind.type < 7) (hne : us ≠ []) :
    Triple True (seg r.ref i us ∗ A ∗ S) (IAlgo.generate first last gen) (fun q => ⌜q = us.length⌝ ∗ seg r.ref i ((List.range us.length).map gen) ∗ A ∗ S) := by
  have h0 : 0 < us.length := List.length_pos_iff.2 hne
  have := lift_fact (generate_ref hs.ok (Nat.le_add_right ..) hs.le hs.fst hs.lst hm (by omega)) (genLoop_spec (gen := gen) (n := 0))
  simpa only [Nat.zero_add, List.range_eq_range'] using this

/-- `algo_generate_n` -/
theorem C63_generate_n (gen : Nat → V) (hs : Stands Z S G r first i us.length) (hm : r.kind.type < 7) (hlow : ∀ q, q ≠ 0 → 2 ≤ low q) (ho : OutArg r o G A B) :
    Triple True (seg r.ref i us ∗ A ∗ S) (IAlgo.generateN low first us.length gen o) (fun _ => seg r.ref i ((List.range us.length).map gen) ∗ B (i + us.length) ∗ S) := by
  have := lift_at (B := B) (generateN_ref hs.ok hs.le (ho.mono hs.at_) hm hlow ho.ok (ho.in hs.at_)) (genNLoop_spec (gen := gen) (n := 0))
  simpa only [Nat.zero_add, List.range_eq_range'] using this

/-- `algo_random_shuffle_by` -/
theorem C63_random_shuffle (rr : Nat → Nat) (hrr : ∀ k, k < vs.length → rr k ≤ k) (hs : Spans Z S A r first last i vs.length) (hm : r.kind.type < 7) (hn : r.Real S) (hc : r.kind.cate = 4) :
    Triple True (seg r.ref i vs ∗ A ∗ S) (IAlgo.shuffle Z first last rr) (fun _ => ∃ₛ ws, ⌜ws.Perm vs⌝ ∗ seg r.ref i ws ∗ A ∗ S) := by
  refine Triple.post ((shuffle_ref hs.ok (Nat.le_add_right ..) hs.le hs.fst hs.lst hm hn hc fun k hk => hrr k (by omega)).lift (C51_random_shuffle rr fun k hk => ?_)) fun a => ?_
  · have := hrr (k + 1) (by omega)
    omega
  · refine ent_ex_left fun _ => ent_pure_left fun _ => ?_
    rw [hex_sep]
    exact ent_ex_left fun ws => ent_ex_right ws (by rw [sep_assoc]; exact ent_refl _)

/-- `algo_partition` -/
theorem C63_partition (pred : V → Bool) (hs : Spans Z S G r first last i vs.length) (hm : r.kind.type < 7) (hn : r.Real S) (ho : OutArg r o G A B) :
    Triple True (seg r.ref i vs ∗ A ∗ S) (IAlgo.partition first last o pred)
      (fun _ => ∃ₛ X Y, ⌜(X ++ Y).Perm vs ∧ (∀ v, v ∈ X → pred v = true) ∧ (∀ v, v ∈ Y → pred v = false)⌝ ∗ seg r.ref i (X ++ Y) ∗ B (i + X.length) ∗ S) := by
  refine Triple.post ((partition_ref hs.ok (Nat.le_add_right ..) hs.le (ho.mono hs.fst) (ho.mono hs.lst) hn hm ho.ok).lift (C49_partition pred)) fun a => ?_
  refine ent_ex_left fun e => ent_pure_left fun _ => ?_
  rw [hex_sep]
  refine ent_ex_left fun X => ?_
  rw [hex_sep]
  refine ent_ex_left fun Y => ?_
  rw [sep_assoc]
  refine ent_pure_left fun hp => ent_ex_right X (ent_ex_right Y (ent_pure_right hp.2 ?_))
  rw [hp.1]
  exact ent_refl _

/-- `algo_partition_copy` -/
theorem C63_partition_copy (pred : V → Bool) (hs : Spans Z S (G1 ∗ G2) r first last i vs.length) (h : Rng P r.ref i vs)
    (hd : Stands Z S (G1 ∗ G2) r2 dFirst j us.length) (hd2 : Stands Z S (G1 ∗ G2) r3 dFirst2 k ws.length) (hm : r2.kind.type < 7) (hm3 : r3.kind.type < 7)
    (hl : (vs.filter pred).length ≤ us.length) (hl' : (vs.filter fun v => !pred v).length ≤ ws.length) (ho : OutArg r2 o G1 A1 B1) (ho2 : OutArg r3 o2 G2 A2 B2) :
    Triple True (P ∗ seg r2.ref j us ∗ seg r3.ref k ws ∗ A1 ∗ A2 ∗ S) (IAlgo.partitionCopy first last dFirst dFirst2 o o2 pred)
      (fun q => ⌜q.1 = vs.length⌝ ∗ P ∗ seg r2.ref j (over us (vs.filter pred)) ∗ seg r3.ref k (over ws (vs.filter fun v => !pred v)) ∗ B1 (j + (vs.filter pred).length) ∗
        B2 (k + (vs.filter fun v => !pred v).length) ∗ S) := by
  have := lift_exact2 (partitionCopy_ref hs.ok (Nat.le_add_right ..) hs.le (ho.mono2 ho2 hs.fst) (ho.mono2 ho2 hs.lst) hd.ok hd2.ok (by have := hd.le; omega) (by have := hd2.le; omega)
    (ho.mono2 ho2 hd.at_) (ho.mono2 ho2 hd2.at_) hm hm3 ho.ok2 (ho2.okR (A1 := A1)).chk' (fun k _ => ho2.okR)) (fun _ _ h => h.1) (C49_partition_copy pred h hl hl')
  rw [seg_slots hd.le, seg_slots hd2.le] at this
  simp only [sep_assoc] at this
  refine NEnt.post this fun a => ?_
  exact .sep (.of (ent_refl _)) (.sep (.of (ent_refl _)) (.sep .slots (.sep .slots (.of (ent_refl _)))))

/-- `algo_merge_by` -/
theorem C63_merge (comp : V → V → Bool) (hsw : StrictWeak comp) (hs : Spans Z S G r first last i vs.length) (hR : Rng P r.ref i vs) (hs2 : Spans Z S G r2 first2 last2 j us.length) (hR' : Rng P r2.ref j us)
    (hx : Sorted comp vs) (hy : Sorted comp us) (hd : Stands Z S G r3 dFirst k ws.length) (hm : r3.kind.type < 7) (hl : vs.length + us.length ≤ ws.length) (hlow : ∀ q, q ≠ 0 → 2 ≤ low q) (ho : OutArg r3 o G A B) :
    Triple True (P ∗ seg r3.ref k ws ∗ A ∗ S) (IAlgo.merge low first last first2 last2 dFirst o comp)
      (fun q => ∃ₛ zs, ⌜zs.Perm (vs ++ us) ∧ Sorted comp zs ∧ StableOf comp (us ++ vs) zs ∧ q.1 = zs.length⌝ ∗ P ∗ seg r3.ref k (over ws zs) ∗ B (k + zs.length) ∗ S) := by
  have := lift_zs (f := fun zs => over ws zs) hd.le (merge_ref hs.ok hs2.ok (Nat.le_add_right ..) hs.le (Nat.le_add_right ..) hs2.le (ho.mono hs.fst) (ho.mono hs.lst) (ho.mono hs2.fst) (ho.mono hs2.lst)
    hd.ok hm (ho.mono hd.at_) (by have := hd.le; omega) (comp := comp) hlow ho.ok) (fun _ _ h => h.1) (p := fun zs => zs.Perm (vs ++ us) ∧ Sorted comp zs ∧ StableOf comp (us ++ vs) zs) (by simpa only [and_assoc] using C46_merge hsw hR hR' hx hy hl)
  simpa only [and_assoc] using this

/-- `algo_set_union_by` -/
theorem C63_union (comp : V → V → Bool) (hsw : StrictWeak comp) (hs : Spans Z S G r first last i vs.length) (hR : Rng P r.ref i vs) (hs2 : Spans Z S G r2 first2 last2 j us.length) (hR' : Rng P r2.ref j us)
    (hx : Sorted comp vs) (hy : Sorted comp us) (hd : Stands Z S G r3 dFirst k ws.length) (hm : r3.kind.type < 7) (hl : vs.length + us.length ≤ ws.length) (hlow : ∀ q, q ≠ 0 → 2 ≤ low q) (ho : OutArg r3 o G A B) :
    Triple True (P ∗ seg r3.ref k ws ∗ A ∗ S) (IAlgo.setUnion low first last first2 last2 dFirst o comp)
      (fun q => ∃ₛ zs, ⌜IsUnion comp vs us zs ∧ q.1 = zs.length⌝ ∗ P ∗ seg r3.ref k (over ws zs) ∗ B (k + zs.length) ∗ S) := by
  have := lift_zs (f := fun zs => over ws zs) hd.le (setUnion_ref hs.ok hs2.ok (Nat.le_add_right ..) hs.le (Nat.le_add_right ..) hs2.le (ho.mono hs.fst) (ho.mono hs.lst) (ho.mono hs2.fst) (ho.mono hs2.lst)
    hd.ok hm (ho.mono hd.at_) (by have := hd.le; omega) (comp := comp) hlow ho.ok) (fun _ _ h => h.1) (p := fun zs => IsUnion comp vs us zs) (by simpa only [and_assoc] using C46_union hsw hR hR' hx hy hl)
  simpa only [and_assoc] using this

/-- `algo_set_intersection_by` -/
theorem C63_intersection (comp : V → V → Bool) (hsw : StrictWeak comp) (hs : Spans Z S G r first last i vs.length) (hR : Rng P r.ref i vs) (hs2 : Spans Z S G r2 first2 last2 j us.length) (hR' : Rng P r2.ref j us)
    (hx : Sorted comp vs) (hy : Sorted comp us) (hd : Stands Z S G r3 dFirst k ws.length) (hm : r3.kind.type < 7) (hl : vs.length ≤ ws.length) (ho : OutArg r3 o G A B) :
    Triple True (P ∗ seg r3.ref k ws ∗ A ∗ S) (IAlgo.setIntersection first last first2 last2 dFirst o comp)
      (fun q => ∃ₛ zs, ⌜IsIntersection comp vs us zs ∧ q.1 = zs.length⌝ ∗ P ∗ seg r3.ref k (over ws zs) ∗ B (k + zs.length) ∗ S) := by
  have := lift_zs (f := fun zs => over ws zs) hd.le (setIntersection_ref hs.ok hs2.ok (Nat.le_add_right ..) hs.le (Nat.le_add_right ..) hs2.le (ho.mono hs.fst) (ho.mono hs.lst) (ho.mono hs2.fst) (ho.mono hs2.lst)
    hd.ok hm (ho.mono hd.at_) (by have := hd.le; omega) (comp := comp) ho.ok) (fun _ _ h => h.1) (p := fun zs => IsIntersection comp vs us zs) (by simpa only [and_assoc] using C46_intersection hsw hR hR' hx hy hl)
  simpa only [and_assoc] using this

/-- `algo_set_symmetric_difference_by` -/
theorem C63_symmetric_difference (comp : V → V → Bool) (hsw : StrictWeak comp) (hs : Spans Z S G r first last i vs.length) (hR : Rng P r.ref i vs) (hs2 : Spans Z S G r2 first2 last2 j us.length) (hR' : Rng P r2.ref j us)
    (hx : Sorted comp vs) (hy : Sorted comp us) (hd : Stands Z S G r3 dFirst k ws.length) (hm : r3.kind.type < 7) (hl : vs.length + us.length ≤ ws.length) (hlow : ∀ q, q ≠ 0 → 2 ≤ low q) (ho : OutArg r3 o G A B) :
    Triple True (P ∗ seg r3.ref k ws ∗ A ∗ S) (IAlgo.setSymDifference low first last first2 last2 dFirst o comp)
      (fun q => ∃ₛ zs, ⌜IsSymDifference comp vs us zs ∧ q.1 = zs.length⌝ ∗ P ∗ seg r3.ref k (over ws zs) ∗ B (k + zs.length) ∗ S) := by
  have := lift_zs (f := fun zs => over ws zs) hd.le (setSymDifference_ref hs.ok hs2.ok (Nat.le_add_right ..) hs.le (Nat.le_add_right ..) hs2.le (ho.mono hs.fst) (ho.mono hs.lst) (ho.mono hs2.fst) (ho.mono hs2.lst)
    hd.ok hm (ho.mono hd.at_) (by have := hd.le; omega) (comp := comp) hlow ho.ok) (fun _ _ h => h.1) (p := fun zs => IsSymDifference comp vs us zs) (by simpa only [and_assoc] using C46_symmetric_difference hsw hR hR' hx hy hl)
  simpa only [and_assoc] using this

/-- `algo_set_difference_by`, if the second range is included in the first, apart from elements behind the whole first range (otherwise the code is wrong, C46) -/
theorem C63_difference (comp : V → V → Bool) (hsw : StrictWeak comp) (hs : Spans Z S G r first last i vs.length) (hR : Rng P r.ref i vs) (hs2 : Spans Z S G r2 first2 last2 j us.length) (hR' : Rng P r2.ref j us)
    (hx : Sorted comp vs) (hy : Sorted comp us) (hi : IncludesLow comp vs us) (hd : Stands Z S G r3 dFirst k ws.length) (hm : r3.kind.type < 7) (hl : vs.length ≤ ws.length) (hlow : ∀ q, q ≠ 0 → 2 ≤ low q) (ho : OutArg r3 o G A B) :
    Triple True (P ∗ seg r3.ref k ws ∗ A ∗ S) (IAlgo.setDifference low first last first2 last2 dFirst o comp)
      (fun q => ∃ₛ zs, ⌜IsDifference comp vs us zs ∧ q.1 = zs.length⌝ ∗ P ∗ seg r3.ref k (over ws zs) ∗ B (k + zs.length) ∗ S) := by
  have := lift_zs (f := fun zs => over ws zs) hd.le (setDifference_ref hs.ok hs2.ok (Nat.le_add_right ..) hs.le (Nat.le_add_right ..) hs2.le (ho.mono hs.fst) (ho.mono hs.lst) (ho.mono hs2.fst) (ho.mono hs2.lst)
    hd.ok hm (ho.mono hd.at_) (by have := hd.le; omega) (comp := comp) hlow ho.ok) (fun _ _ h => h.1) (p := fun zs => IsDifference comp vs us zs) (by simpa only [and_assoc] using C46_difference_partial hsw hR hR' hx hy hi hl)
  simpa only [and_assoc] using this

/-- the exact effect of `algo_set_difference_by` on any range and any sorted second one -/
theorem C63_difference_exact (comp : V → V → Bool) (hsw : StrictWeak comp) (hs : Spans Z S G r first last i vs.length) (hR : Rng P r.ref i vs) (hs2 : Spans Z S G r2 first2 last2 j us.length) (hR' : Rng P r2.ref j us)
    (hy : Sorted comp us) (hd : Stands Z S G r3 dFirst k ws.length) (hm : r3.kind.type < 7) (hl : vs.length ≤ ws.length) (hlow : ∀ q, q ≠ 0 → 2 ≤ low q) (ho : OutArg r3 o G A B) :
    Triple True (P ∗ seg r3.ref k ws ∗ A ∗ S) (IAlgo.setDifference low first last first2 last2 dFirst o comp)
      (fun q => ∃ₛ zs, ⌜zs = struck comp vs us ∧ q.1 = zs.length⌝ ∗ P ∗ seg r3.ref k (over ws zs) ∗ B (k + zs.length) ∗ S) := by
  have := lift_zs (f := fun zs => over ws zs) hd.le (setDifference_ref hs.ok hs2.ok (Nat.le_add_right ..) hs.le (Nat.le_add_right ..) hs2.le (ho.mono hs.fst) (ho.mono hs.lst) (ho.mono hs2.fst) (ho.mono hs2.lst)
    hd.ok hm (ho.mono hd.at_) (by have := hd.le; omega) (comp := comp) hlow ho.ok) (fun _ _ h => h.1) (p := fun zs => zs = struck comp vs us) (by
      refine Triple.post (C46_difference_exact_partial hsw hR hR' hy hl) ?_
      intro q
      refine ent_pure_left fun h => ?_
      refine ent_ex_right (struck comp vs us) ?_
      cancel
      done)
  simpa only [and_assoc] using this

/-- `algo_includes_by` -/
theorem C63_includes (comp : V → V → Bool) (hsw : StrictWeak comp) (hs : Spans Z S A r first last i vs.length) (hR : Rng P r.ref i vs) (hs2 : Spans Z S A r2 first2 last2 j us.length) (hR' : Rng P r2.ref j us)
    (hx : Sorted comp vs) (hy : Sorted comp us) :
    Triple True (P ∗ A ∗ S) (IAlgo.includes first last first2 last2 comp) (fun q => ⌜q = true ↔ Includes comp vs us⌝ ∗ P ∗ A ∗ S) :=
  lift_fact (includes_ref hs.ok hs2.ok (Nat.le_add_right ..) hs.le (Nat.le_add_right ..) hs2.le hs.fst hs.lst hs2.fst hs2.lst) (C46_includes hsw hR hR' hx hy)

end CC.IAlgo
