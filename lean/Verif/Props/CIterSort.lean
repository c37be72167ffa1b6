import Verif.IAlgo.Views
import Verif.IAlgo.SortG
import Verif.Props.CIterModify
/-!
# Property C64: sorting and heaps, called with iterator objects

As for C62, C63.  `Rand S r`: the iterators of the container `r` are random access iterators (vectors and deques).  Building a heap computes (but does not use) the positions of children that do
not exist, beyond the end; `r.Far S` says that this is possible: it is for the iterators of vectors and deques, not for their reverse iterators, which would have to point before the buffer.
A concrete memory in which all the hypotheses of these theorems hold is constructed in Verif/Props/CIterAll.lean (`exists_call`), together with programs of clients that establish them (`whole`).
-/
namespace CC.IAlgo
open CC CC.Tac CC.Iter CC.Algo
variable {V : Type} {Z : Nat → Nat} {S A A1 A2 G G1 G2 P : HProp V} {r r2 r3 : Src V} {B B1 B2 : Nat → HProp V} {first last middle first2 last2 dFirst dLast i j k : Nat} {vs us ws : List V} {value new : Loc}
  {w x : V} {o o2 : IAlgo.Out} {low : Nat → Nat} {comp : V → V → Bool}

/-- random access iterators to elements that may be modified -/
structure Rand (S : HProp V) (r : Src V) : Prop where
  bidir : r.kind.bidir
  cate : r.kind.cate = 4
  real : r.Real S
  mutable : r.kind.type < 7

/-! ## the containers that have random access iterators -/
section
variable {nf : Prop} {ty v b cap n lo hi : Nat} {t : Ty V}

theorem vec_rand : Rand (vecS ty v b cap n) (vecSrc (V := V) v b ty n) :=
  ⟨by simp [vecSrc, Kind.bidir], rfl, fun _ _ hh _ hi => vecS_real hi hh, by show (3 : Nat) < 7; omega⟩
theorem vecR_rand : Rand (vecS ty v b cap n) (vecSrcR (V := V) v b ty n) :=
  ⟨by simp [vecSrcR, Kind.bidir], rfl, fun _ _ hh _ hi => vecS_real hi hh, by show (4 : Nat) < 7; omega⟩
theorem deq_rand : Rand (deqS ty v b lo hi n) (deqSrc (V := V) v b lo ty n) :=
  ⟨by simp [deqSrc, Kind.bidir], rfl, fun _ _ hh _ hi => deqS_real hi hh, by show (5 : Nat) < 7; omega⟩
theorem deqR_rand : Rand (deqS ty v b lo hi n) (deqSrcR (V := V) v b lo ty n) :=
  ⟨by simp [deqSrcR, Kind.bidir], rfl, fun _ _ hh _ hi => deqS_real hi hh, by show (6 : Nat) < 7; omega⟩

theorem vec_far : (vecSrc (V := V) v b ty n).Far S := by
  intro i m _
  show Triple True S (if ((1 + i : Nat) : Int) + (m : Int) < 0 then ub else pure (Pay.pos b (((1 + i : Nat) : Int) + (m : Int)).toNat)) (fun p => ⌜p = .pos b (1 + (i + m))⌝ ∗ S)
  rw [if_neg (by omega)]
  apply Triple.ret
  refine ent_pure_right ?_ (ent_refl _)
  congr 1
  omega
theorem deq_far : (deqSrc (V := V) v b lo ty n).Far S := by
  intro i m _
  show Triple True S (if ((1 + lo + i : Nat) : Int) + (m : Int) < 0 then ub else pure (Pay.pos b (((1 + lo + i : Nat) : Int) + (m : Int)).toNat)) (fun p => ⌜p = .pos b (1 + lo + (i + m))⌝ ∗ S)
  rw [if_neg (by omega)]
  apply Triple.ret
  refine ent_pure_right ?_ (ent_refl _)
  congr 1
  omega
end

theorem OutArg.ex (h : OutArg r o G A B) : OutEx r o A := by
  cases h with
  | null => exact OutEx.null
  | fresh => exact OutEx.fresh
  | old => exact OutEx.old

/-- from the slots of a range to its elements -/
theorem lift_seg {α : Type} {m m' : M V Unit} {p : α → Prop} {f : α → List V} (hl : i + vs.length ≤ r.len) (h : RefC (A ∗ S) m m' (fun _ _ => True) (fun _ _ => A ∗ S))
    (ht : Triple True (seg r.slots i vs) m' (fun _ => ∃ₛ a, ⌜p a⌝ ∗ seg r.slots i (f a))) :
    Triple True (seg r.ref i vs ∗ A ∗ S) m (fun _ => ∃ₛ a, ⌜p a⌝ ∗ seg r.ref i (f a) ∗ A ∗ S) := by
  have := h.lift ht
  rw [seg_slots hl] at this
  refine NEnt.post this fun _ => ?_
  rintro s hn ⟨_, hs⟩
  rw [hpure_sep_apply, hex_sep] at hs
  obtain ⟨_, a, hs⟩ := hs
  rw [sep_assoc, hpure_sep_apply] at hs
  exact ⟨a, hpure_sep_apply.2 ⟨hs.1, NEnt.sep .slots (.of (ent_refl _)) s hn hs.2⟩⟩

theorem lift_seg2 {m m' : M V Unit} {α β : Type} {p : α → β → Prop} {f : α → β → List V} (hl : i + vs.length ≤ r.len) (h : RefC (A ∗ S) m m' (fun _ _ => True) (fun _ _ => A ∗ S))
    (ht : Triple True (seg r.slots i vs) m' (fun _ => ∃ₛ a, ∃ₛ b, ⌜p a b⌝ ∗ seg r.slots i (f a b))) :
    Triple True (seg r.ref i vs ∗ A ∗ S) m (fun _ => ∃ₛ a, ∃ₛ b, ⌜p a b⌝ ∗ seg r.ref i (f a b) ∗ A ∗ S) := by
  have := lift_seg (p := fun ab : α × β => p ab.1 ab.2) (f := fun ab => f ab.1 ab.2) hl h (Triple.post ht fun _ => ?_)
  · refine Triple.post this fun _ => ?_
    rintro s ⟨⟨a, b⟩, hs⟩
    exact ⟨a, b, hs⟩
  · rintro s ⟨a, b, hs⟩
    exact ⟨(a, b), hs⟩

/-! ## heaps -/

/-- `algo_make_heap_by` -/
theorem C64_make_heap_partial (hsw : StrictWeak comp) (hs : Spans Z S A r first last i vs.length) (hx : Rand S r) (hf : r.Far S) :
    Triple True (seg r.ref i vs ∗ A ∗ S) (IAlgo.makeHeap Z first last comp) (fun _ => ∃ₛ ws, ⌜ws.Perm vs ∧ IsHeap comp ws⌝ ∗ seg r.ref i ws ∗ A ∗ S) :=
  lift_seg hs.le (makeHeap_ref hs.ok (Nat.le_add_right ..) hs.le hs.fst hs.lst hf hx.real hx.mutable hx.cate) (C43_make_heap hsw)

/-- `algo_push_heap_by` -/
theorem C64_push_heap (hsw : StrictWeak comp) (v : V) (hh : IsHeap comp vs) (hs : Spans Z S A r first last i (vs ++ [v]).length) (hx : Rand S r) :
    Triple True (seg r.ref i (vs ++ [v]) ∗ A ∗ S) (IAlgo.pushHeap Z first last comp) (fun _ => ∃ₛ ws, ⌜ws.Perm (vs ++ [v]) ∧ IsHeap comp ws⌝ ∗ seg r.ref i ws ∗ A ∗ S) :=
  lift_seg hs.le (pushHeap_ref hs.ok (Nat.le_add_right ..) hs.le hs.fst hs.lst hx.bidir hx.cate) (C43_push_heap hsw v hh)

/-- `algo_pop_heap_by` -/
theorem C64_pop_heap (hsw : StrictWeak comp) (hne : vs ≠ []) (hh : IsHeap comp vs) (hs : Spans Z S A r first last i vs.length) (hx : Rand S r) :
    Triple True (seg r.ref i vs ∗ A ∗ S) (IAlgo.popHeap Z first last comp)
      (fun _ => ∃ₛ ws, ∃ₛ a, ⌜(ws ++ [a]).Perm vs ∧ IsHeap comp ws ∧ IsMax comp vs a⌝ ∗ seg r.ref i (ws ++ [a]) ∗ A ∗ S) :=
  lift_seg2 hs.le (popHeap_ref hs.ok (Nat.le_add_right ..) hs.le hs.fst hs.lst hx.bidir hx.cate hx.real hx.mutable) (C43_pop_heap hsw hne hh)

/-- `algo_sort_heap_by` -/
theorem C64_sort_heap (hsw : StrictWeak comp) (hh : IsHeap comp vs) (hs : Spans Z S A r first last i vs.length) (hx : Rand S r) :
    Triple True (seg r.ref i vs ∗ A ∗ S) (IAlgo.sortHeap Z first last comp) (fun _ => ∃ₛ ws, ⌜ws.Perm vs ∧ Sorted comp ws⌝ ∗ seg r.ref i ws ∗ A ∗ S) :=
  lift_seg hs.le (sortHeap_ref hs.ok (Nat.le_add_right ..) hs.le hs.fst hs.lst hx.bidir hx.cate hx.real hx.mutable) (C43_sort_heap hsw hh)

/-- `algo_is_heap_by` -/
theorem C64_is_heap (hs : Spans Z S A r first last i vs.length) (hR : Rng P r.ref i vs) (hc : r.kind.cate = 4) :
    Triple True (P ∗ A ∗ S) (IAlgo.isHeap Z first last comp) (fun q => ⌜q = true ↔ IsHeap comp vs⌝ ∗ P ∗ A ∗ S) :=
  lift_fact (isHeap_ref hs.ok (Nat.le_add_right ..) hs.le hs.fst hs.lst hc) (C43_is_heap hR)

/-- `algo_is_heap_until_by` on heaps; on other ranges the result is wrong (C44) -/
theorem C64_is_heap_until_partial (hs : Spans Z S G r first last i vs.length) (hR : Rng P r.ref i vs) (hh : IsHeap comp vs) (hc : r.kind.cate = 4) (ho : OutVar r o G A B) :
    Triple True (P ∗ A ∗ S) (IAlgo.isHeapUntil Z first last o comp) (fun _ => P ∗ B (i + vs.length) ∗ S) :=
  lift_at (B := B) (isHeapUntil_ref hs.ok (Nat.le_add_right ..) hs.le (ho.arg.mono hs.fst) (ho.arg.mono hs.lst) hc ho.arg.ok ho.arg.ex ho.wanted) (C44_is_heap_until_partial hR hh)

/-! ## sorting -/

/-- `algo_sort_by` on ranges of up to 512 elements, through iterators or reverse iterators -/
theorem C64_sort_short_partial (hsw : StrictWeak comp) (hn : vs.length ≤ 512) (hs : Spans Z S A r first last i vs.length) (hx : Rand S r) (hlow : ∀ q, q ≠ 0 → 3 ≤ low q) :
    Triple True (seg r.ref i vs ∗ A ∗ S) (IAlgo.sort Z low first last comp) (fun _ => ∃ₛ ws, ⌜ws.Perm vs ∧ Sorted comp ws⌝ ∗ seg r.ref i ws ∗ A ∗ S) :=
  lift_seg hs.le (sort_ref hs.ok hx.bidir hx.cate (fun h => absurd h (by have : threshold = 512 := rfl; omega)) hx.real hx.mutable hlow (Nat.le_add_right ..) hs.le hs.fst hs.lst) (sortG_small hsw hn)

/-- `algo_sort_by` on any range: nothing outside of it changes, it terminates, the result is sorted and contains no strange elements, the copies of iterators and elements are freed.  Missing: that no element is lost (see C41). -/
theorem C64_sort_any_partial (hsw : StrictWeak comp) (hs : Spans Z S A r first last i vs.length) (hx : Rand S r) (hf : r.Far S) (hlow : ∀ q, q ≠ 0 → 3 ≤ low q) :
    Triple True (seg r.ref i vs ∗ A ∗ S) (IAlgo.sort Z low first last comp)
      (fun _ => ∃ₛ ws, ⌜ws.length = vs.length ∧ Sorted comp ws ∧ (∀ x, x ∈ ws → x ∈ vs)⌝ ∗ seg r.ref i ws ∗ A ∗ S) :=
  lift_seg hs.le (sort_ref hs.ok hx.bidir hx.cate (fun _ => hf) hx.real hx.mutable hlow (Nat.le_add_right ..) hs.le hs.fst hs.lst) (sortG_any hsw)

/-- `algo_partial_sort_by` -/
theorem C64_partial_sort_partial (hsw : StrictWeak comp) (X Y : List V) (hs : Spans Z S A r first last i (X ++ Y).length) (hmid : At A r middle (i + X.length)) (hx : Rand S r) (hf : r.Far S) :
    Triple True (seg r.ref i (X ++ Y) ∗ A ∗ S) (IAlgo.partialSort Z first middle last comp)
      (fun _ => ∃ₛ X', ∃ₛ Y', ⌜(X' ++ Y').Perm (X ++ Y) ∧ X'.length = X.length ∧ Sorted comp X' ∧ (∀ a, a ∈ X' → ∀ b, b ∈ Y' → comp b a = false)⌝ ∗ seg r.ref i (X' ++ Y') ∗ A ∗ S) := by
  obtain ⟨h1, h2, h3, h4⟩ := hs
  have h2' := h2
  rw [List.length_append, ← Nat.add_assoc] at h2 h4
  exact lift_seg2 h2' (partialSort_ref h1 (by omega) (by omega) h2 h3 hmid h4 hx.bidir hx.cate hf hx.real hx.mutable) (C42_partial_sort hsw X Y)

/-- `algo_partial_sort_copy_by` -/
theorem C64_partial_sort_copy_partial (hsw : StrictWeak comp) (hs : Spans Z S G r first last i vs.length) (hR : Rng P r.ref i vs) (hd : Spans Z S G r2 dFirst dLast j us.length) (hx : Rand S r2) (hf : r2.Far S)
    (ho : OutArg r2 o G A B) :
    Triple True (P ∗ seg r2.ref j us ∗ A ∗ S) (IAlgo.partialSortCopy Z first last dFirst dLast o comp)
      (fun q => ∃ₛ ws, ∃ₛ rest, ⌜(ws ++ rest).Perm vs ∧ ws.length = min vs.length us.length ∧ Sorted comp ws ∧ (∀ a, a ∈ ws → ∀ b, b ∈ rest → comp b a = false) ∧ q.1 = ws.length⌝ ∗
        P ∗ seg r2.ref j (over us ws) ∗ B (j + ws.length) ∗ S) := by
  have hR' : Rng P r.slots i vs := by
    intro k hk
    rw [slots_lt (by have := hs.le; omega)]
    exact hR k hk
  have := (partialSortCopy_ref (comp := comp) hs.ok hd.ok (Nat.le_add_right ..) hs.le (Nat.le_add_right ..) hd.le (ho.mono hs.fst) (ho.mono hs.lst) (ho.mono hd.fst) (ho.mono hd.lst) hx.bidir hx.cate hf hx.real hx.mutable
    ho.ok (ho.in hd.fst) ho.ex).lift (C42_partial_sort_copy (d := r2.slots) (j := j) (us := us) hsw hR')
  rw [seg_slots hd.le, sep_assoc] at this
  refine NEnt.post this fun q => ?_
  rintro s hn ⟨a', hs⟩
  rw [hpure_sep_apply, sep_assoc, hpure_sep_apply] at hs
  obtain ⟨hq, ha, hs⟩ := hs
  subst ha
  rw [sep_assoc] at hs
  obtain ⟨s1, s2, hd', he, hp, s3, s4, hd2, he2, ⟨ws, rest, h1⟩, h2⟩ := hs
  rw [hpure_sep_apply] at h1
  obtain ⟨⟨p1, p2, p3, p4⟩, h1⟩ := h1
  refine ⟨ws, rest, hpure_sep_apply.2 ⟨⟨p1, p2, p3, p4, by rw [p2]; exact hq.1⟩, ?_⟩⟩
  rw [p2]
  exact NEnt.sep (.of (ent_refl _)) (.sep .slots (.of (ent_refl _))) s hn ⟨s1, s2, hd', he, hp, s3, s4, hd2, he2, h1, h2⟩

/-- `algo_is_sorted_by` (any iterators) -/
theorem C64_is_sorted (hsw : StrictWeak comp) (hs : Spans Z S A r first last i vs.length) (hR : Rng P r.ref i vs) :
    Triple True (P ∗ A ∗ S) (IAlgo.isSorted first last comp) (fun q => ⌜q = true ↔ Sorted comp vs⌝ ∗ P ∗ A ∗ S) :=
  lift_fact (isSorted_ref hs.ok (Nat.le_add_right ..) hs.le hs.fst hs.lst) (C44_is_sorted hsw hR)

/-- `algo_is_sorted_until_by` on sorted ranges; on other ranges the result is wrong (C44) -/
theorem C64_is_sorted_until_partial (hsw : StrictWeak comp) (hs : Spans Z S G r first last i vs.length) (hR : Rng P r.ref i vs) (hh : Sorted comp vs) (ho : OutVar r o G A B) :
    Triple True (P ∗ A ∗ S) (IAlgo.isSortedUntil first last o comp) (fun _ => P ∗ B (i + vs.length) ∗ S) :=
  lift_at (B := B) (isSortedUntil_ref hs.ok (Nat.le_add_right ..) hs.le (ho.arg.mono hs.fst) (ho.arg.mono hs.lst) ho.arg.ok (ho.arg.in hs.lst) ho.wanted) (C44_is_sorted_until_partial hsw hR hh)

end CC.IAlgo
