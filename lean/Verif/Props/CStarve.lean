import Verif.IAlgo.Range
import Verif.IAlgo.Modify
import Verif.IAlgo.Sort
import Verif.Props.CIterAll
import Verif.Props.CModify
/-!
# Property C65: algorithms and allocation failure

The algorithms work on copies of the iterators they are given, made by `C_ITER_COPY`, and never check whether that copy could be allocated.
`Starved P m`: with an allocator that always fails, from every memory that satisfies `P`, the program `m` runs into undefined behaviour (here always: it follows a NULL pointer).
-/
namespace CC.IAlgo
open CC CC.Tac CC.Iter CC.Algo
variable {V α β : Type} {Z : Nat → Nat} {S G P F : HProp V} {r r2 : Src V} {first last dFirst x y i j n k : Nat}

def Starved (P : HProp V) (m : M V α) : Prop := ∀ s : Mem V, (∀ t, s.orc t = 0) → P s.cells → m s = some (.error .ub)

theorem Starved.bind {Q : α → HProp V} {m : M V α} {k : α → M V β} (h : Triple False P m Q) (hk : ∀ a, Starved (Q a) (k a)) : Starved P (m >>= k) := by
  intro s ho hs
  obtain ⟨a, s', h1, h2, h3⟩ := h.run (F := emp) (s := s) (fun h => h.elim) (by rw [sep_emp]; exact hs)
  rw [bind_ok h1]
  rw [sep_emp] at h3
  exact hk a s' (by rw [h2]; exact ho) h3

theorem Starved.fact {p : Prop} {m : M V α} (hp : ∀ h, P h → p) (h : p → Starved P m) : Starved P m := fun s ho hs => h (hp _ hs) s ho hs

theorem Starved.null {f : Kind → M V α} : Starved P (opsOf 0 >>= f) := by
  intro s _ _
  unfold opsOf
  rw [if_pos rfl]
  rfl

/-- an iterator of the caller -/
theorem At.it (h : At P r x i) {m : M V β} (hk : x ≠ 0 → ItAt P r.kind r.ty x (r.pay i) → Starved P m) : Starved P m := by
  obtain ⟨R, he⟩ := h
  refine Starved.fact (p := x ≠ 0) (fun h hh => isIt_ne (he h hh)) fun hx => ?_
  exact hk hx (.of_ent hx he)

theorem Starved.atLeast {c : Nat} (h1 : At P r x i) (hc : c ≤ r.kind.cate) {K : Unit → M V β} (hk : Starved P (K ())) : Starved P (IAlgo.atLeast x c >>= K) := by
  refine h1.it fun hx h1 => ?_
  refine Starved.bind (Q := fun _ => P) ?_ fun _ => hk
  unfold IAlgo.atLeast
  rw [if_neg hx]
  refine ldN_reads h1.2.1 ?_
  rw [← bind_pure (cassert _)]
  exact Triple.cassert_spec (by simpa using hc) (Triple.ret (ent_refl _))

theorem Starved.exactly {c : Nat} (h1 : At P r x i) (hc : r.kind.cate = c) {K : Unit → M V β} (hk : Starved P (K ())) : Starved P (IAlgo.exactly x c >>= K) := by
  refine h1.it fun hx h1 => ?_
  refine Starved.bind (Q := fun _ => P) ?_ fun _ => hk
  unfold IAlgo.exactly
  rw [if_neg hx]
  refine ldN_reads h1.2.1 ?_
  rw [← bind_pure (cassert _)]
  exact Triple.cassert_spec (by simpa using hc) (Triple.ret (ent_refl _))

theorem Starved.mutable (h1 : At P r x i) (hc : r.kind.type < 7) {K : Unit → M V β} (hk : Starved P (K ())) : Starved P (IAlgo.isMutable x >>= K) := by
  refine h1.it fun hx h1 => ?_
  refine Starved.bind (Q := fun _ => P) ?_ fun _ => hk
  unfold IAlgo.isMutable
  rw [if_neg hx]
  refine ldN_reads h1.2.2.1 ?_
  rw [← bind_pure (cassert _)]
  exact Triple.cassert_spec (by simpa using hc) (Triple.ret (ent_refl _))

/-- `C_ITER_COPY` without memory: the copy is NULL -/
theorem Starved.copy (h1 : At P r x i) {K : Nat → M V β} (hk : Starved P (K 0)) : Starved P (newCopy x >>= K) := by
  refine h1.it fun hx h => ?_
  unfold newCopy
  simp only [bind_assoc]
  have ho : Triple False P (opsOf x : M V Kind) (fun k => ⌜k = r.kind⌝ ∗ P) := by
    rw [← bind_pure (opsOf x)]
    refine h.opsOf (Triple.ret ?_)
    exact ent_pure_right rfl (ent_refl _)
  refine Starved.bind ho fun k s hs hp => ?_
  rw [hpure_sep_apply] at hp
  obtain ⟨rfl, hp⟩ := hp
  have hi : Triple False P (isIter r.kind x : M V Bool) (fun k => ⌜k = true⌝ ∗ P) := by
    rw [← bind_pure (isIter r.kind x)]
    refine h.isIter (Triple.ret ?_)
    exact ent_pure_right (by simp) (ent_refl _)
  refine Starved.bind hi (fun k s hs hp => ?_) s hs hp
  rw [hpure_sep_apply] at hp
  obtain ⟨rfl, hp⟩ := hp
  simp only [↓reduceIte, bind_assoc]
  have hm : (mallocS 5 : M V Nat) s = some (.ok (0, { s with tick := s.tick + 1, clk := s.clk + 1 })) := by
    show (mallocG 5 _ : M V Nat) s = _
    unfold mallocG
    show (if h : s.orc s.tick = 0 then _ else _ : M V Nat) s = _
    rw [dif_pos (hs s.tick)]
    rfl
  rw [bind_ok hm]
  simp only [ne_eq, not_true_eq_false, ↓reduceIte, pure_bind]
  exact hk _ hs hp

/-! ## The algorithms with iterators: none of those that copy their iterators survives an allocator that fails; here six of them, for all ranges (also empty ones, except for `algo_sort`). -/

theorem cate_two : 2 ≤ r.kind.cate := by cases r.kind <;> simp [Kind.cate]

/-- `algo_all_of` -/
theorem C65_all_of_violated (pred : V → Bool) (hs : Spans Z S G r first last i n) : Starved (G ∗ F) (IAlgo.allOf first last pred) := by
  have hc := cate_two (r := r)
  have h1 : At (G ∗ F) r first i := hs.fst.mono (ent_refl _)
  have h2 : At (G ∗ F) r last (i + n) := hs.lst.mono (ent_refl _)
  refine h1.it fun hf _ => h2.it fun hl _ => ?_
  unfold IAlgo.allOf
  simp only [hf, hl, or_self, ↓reduceIte]
  refine .atLeast h1 (by omega) ?_
  refine .atLeast h2 (by omega) ?_
  refine .copy h1 ?_
  refine .copy h2 ?_
  rw [scan, bind_assoc]
  unfold cNe
  rw [bind_assoc]
  exact Starved.null

/-- `algo_find_if` -/
theorem C65_find_if_violated (pred : V → Bool) (hs : Spans Z S G r first last i n) : Starved (G ∗ F) (IAlgo.findIf first last (.var (0, k)) pred) := by
  have hc := cate_two (r := r)
  have h1 : At (G ∗ F) r first i := hs.fst.mono (ent_refl _)
  have h2 : At (G ∗ F) r last (i + n) := hs.lst.mono (ent_refl _)
  refine h1.it fun hf _ => h2.it fun hl _ => ?_
  unfold IAlgo.findIf
  simp only [hf, hl, or_self, ↓reduceIte]
  refine .atLeast h1 (by omega) ?_
  refine .atLeast h2 (by omega) ?_
  unfold Out.atLeast
  simp only [↓reduceIte, pure_bind]
  refine .copy h1 ?_
  refine .copy h2 ?_
  rw [scan, bind_assoc]
  unfold cNe
  rw [bind_assoc]
  exact Starved.null

/-- `algo_lower_bound_by` -/
theorem C65_lower_bound_violated (comp : V → V → Bool) {value q : Loc} (hv : value.1 ≠ 0) (hs : Spans Z S G r first last i n) :
    Starved (pts q (.num 0) ∗ G ∗ F) (IAlgo.lowerBound Z first last value (.var q) comp) := by
  have hc := cate_two (r := r)
  have h1 : At (pts q (.num 0) ∗ G ∗ F) r first i := hs.fst.mono (R := pts q (.num 0) ∗ F) (by cancel)
  have h2 : At (pts q (.num 0) ∗ G ∗ F) r last (i + n) := hs.lst.mono (R := pts q (.num 0) ∗ F) (by cancel)
  refine h1.it fun hf _ => h2.it fun hl _ => ?_
  refine Starved.fact (p := q.1 ≠ 0) (fun h hh => pts_ne_zero hh) fun hq => ?_
  unfold IAlgo.lowerBound
  simp only [hf, hl, hv, Out.isNull, beq_iff_eq, hq, or_self, ↓reduceIte]
  refine .atLeast h1 (by omega) ?_
  refine .atLeast h2 (by omega) ?_
  refine Starved.bind (Q := fun _ => pts q (.num 0) ∗ G ∗ F) ?_ fun _ => ?_
  · unfold Out.atLeast
    simp only [hq, ↓reduceIte]
    steps
    apply Triple.ret
    cancel
  refine .copy h1 ?_
  refine .copy h2 ?_
  unfold cDistance
  rw [bind_assoc]
  exact Starved.null

/-- `algo_copy` -/
theorem C65_copy_violated {low : Nat → Nat} (hs : Spans Z S G r first last i n) (hd : Stands Z S G r2 dFirst j n) (hm : r2.kind.type < 7) :
    Starved (G ∗ F) (IAlgo.copy low first last dFirst (.var (0, k))) := by
  have hc := cate_two (r := r)
  have hc2 := cate_two (r := r2)
  have h1 : At (G ∗ F) r first i := hs.fst.mono (ent_refl _)
  have h2 : At (G ∗ F) r last (i + n) := hs.lst.mono (ent_refl _)
  have h3 : At (G ∗ F) r2 dFirst j := hd.at_.mono (ent_refl _)
  refine h1.it fun hf _ => h2.it fun hl _ => h3.it fun hdf _ => ?_
  unfold IAlgo.copy
  simp only [hf, hl, hdf, or_self, ↓reduceIte]
  refine .atLeast h1 (by omega) ?_
  refine .atLeast h2 (by omega) ?_
  refine .atLeast h3 (by omega) ?_
  unfold Out.lowCheck
  simp only [↓reduceIte, pure_bind]
  refine .mutable h3 hm ?_
  refine .copy h1 ?_
  refine .copy h2 ?_
  refine .copy h3 ?_
  rw [copyLoop, bind_assoc]
  unfold cNe
  rw [bind_assoc]
  exact Starved.null

/-- `algo_reverse` -/
theorem C65_reverse_violated (hs : Spans Z S G r first last i n) (hm : r.kind.type < 7) (hb : r.kind.bidir) : Starved (G ∗ F) (IAlgo.reverse first last) := by
  have hc : 3 ≤ r.kind.cate := by
    unfold Kind.bidir at hb
    cases hk : r.kind <;> simp_all [Kind.cate]
  have h1 : At (G ∗ F) r first i := hs.fst.mono (ent_refl _)
  have h2 : At (G ∗ F) r last (i + n) := hs.lst.mono (ent_refl _)
  refine h1.it fun hf _ => h2.it fun hl _ => ?_
  unfold IAlgo.reverse
  simp only [hf, hl, or_self, ↓reduceIte]
  refine .atLeast h1 (by omega) ?_
  refine .atLeast h2 (by omega) ?_
  refine .mutable h1 hm ?_
  refine .mutable h2 hm ?_
  refine .copy h1 ?_
  refine .copy h2 ?_
  rw [reverseLoop, bind_assoc]
  unfold cNe
  rw [bind_assoc]
  exact Starved.null

/-- `algo_sort_by` of two or more elements -/
theorem C65_sort_violated {low : Nat → Nat} (comp : V → V → Bool) (hs : Spans Z S G r first last i n) (hn : n ≠ 0) (hx : Rand S r) : Starved (G ∗ S) (IAlgo.sort Z low first last comp) := by
  have h1 : At (G ∗ S) r first i := hs.fst.mono (ent_refl _)
  have h2 : At (G ∗ S) r last (i + n) := hs.lst.mono (ent_refl _)
  refine h1.it fun hf i1 => h2.it fun hl i2 => ?_
  unfold IAlgo.sort
  simp only [hf, hl, or_self, ↓reduceIte]
  refine .exactly h1 hx.cate ?_
  refine .exactly h2 hx.cate ?_
  refine .mutable h1 hx.mutable ?_
  refine Starved.fact (p := r.pay i ≠ r.pay (i + n)) (fun h hh he => ?_) fun hne => ?_
  · have := hs.ok.inj h G ((show _ ⊢ₛ _ by cancel) _ hh) i (i + n) (by have := hs.le; omega) hs.le he
    omega
  refine Starved.bind (Q := fun b => ⌜b = false⌝ ∗ G ∗ S) ?_ fun b s hs' hp => ?_
  · rw [← bind_pure (cEq first last)]
    refine cEq_reads i1 i2 (Triple.ret ?_)
    exact ent_pure_right (by simp [hne]) (ent_refl _)
  rw [hpure_sep_apply] at hp
  obtain ⟨rfl, hp⟩ := hp
  simp only [Bool.false_eq_true, ↓reduceIte]
  refine Starved.copy h1 (Starved.copy h2 ?_) s hs' hp
  unfold cDistance
  rw [bind_assoc]
  exact Starved.null

/-- Such memories exist: the list 3, 1, 2, iterators to its begin and end (stored by the API), and from then on malloc fails. -/
example : ∃ (m : Mem Nat) (l s x y : Addr) (xs : List (CList.Elem Nat)), CList.vals xs = [3, 1, 2] ∧
    (∃ F, (CList.isList l s 1 xs ∗ It (listSrc l s 1 xs) x 0 ∗ It (listSrc l s 1 xs) y 3 ∗ F) m.cells) ∧ IAlgo.allOf x y (fun a => a == 1) m = some (.error .ub) := by
  obtain ⟨m, l, s, xs, ho, hxs, hm⟩ := CList.exists_list (V := Nat) (fun _ => ⟨0, fun a b => a < b, fun a b => a == b⟩) 1 (by simp) [3, 1, 2] (by simp)
  obtain ⟨m, x, ho, hm⟩ := exists_struct ho hm
  obtain ⟨m, y, ho, hm⟩ := exists_struct ho hm
  have hl : xs.length = 3 := by
    have := congrArg List.length hxs
    simpa [CList.vals] using this
  have hset : setVals xs [3, 1, 2] = xs := by
    rw [← hxs]
    match xs, hl with
    | [a, b, c], _ => rfl
  have hv := list_view (Z := fun _ => 4) (l := l) (s := s) (ty := 1) (xs := xs) (by simp)
  have hlen : (listSrc l s 1 xs).len = 3 := hl
  have he := hv.eq [3, 1, 2] hlen.symm
  simp only [hset] at he
  have ht := whole_spec (x := x) (y := y) (F := emp) (m := (pure () : M Nat Unit)) (Q := fun _ => It (listSrc l s 1 xs) x 0 ∗ It (listSrc l s 1 xs) y (listSrc l s 1 xs).len ∗ listS l s 1 xs ∗ emp) hv.ok (Triple.ret (ent_refl _))
  obtain ⟨_, m', _, _, hm'⟩ := ht.run (F := seg (listSrc l s 1 xs).ref 0 [3, 1, 2] ∗ arr 1 1 ([3, 1, 2].map fun v => .obj (some v))) (s := m) (fun _ => ho)
    (by rw [he] at hm; exact (show _ ⊢ₛ _ by cancel) _ hm)
  refine ⟨{ m' with orc := fun _ => 0 }, l, s, x, y, xs, hxs, ⟨arr 1 1 ([3, 1, 2].map fun v => .obj (some v)), ?_⟩, ?_⟩
  · rw [hlen] at hm'
    rw [he]
    exact (show _ ⊢ₛ _ by cancel) _ hm'
  · refine C65_all_of_violated (F := listS l s 1 xs ∗ seg (listSrc l s 1 xs).ref 0 [3, 1, 2] ∗ arr 1 1 ([3, 1, 2].map fun v => .obj (some v))) (G := It (listSrc l s 1 xs) x 0 ∗ It (listSrc l s 1 xs) y (listSrc l s 1 xs).len ∗ emp) _ (spans_whole (vs := [3, 1, 2]) hv.ok hlen.symm) _ (fun _ => rfl) ?_
    exact (show _ ⊢ₛ _ by cancel) _ hm'

/-! ## What holds: `algo_max_by` and `algo_min_by` check the result of malloc; without memory they return NULL and change nothing. -/

/-- `algo_max_by` with any allocator -/
theorem C65_max_partial (comp : V → V → Bool) {l l' : Loc} {a b : V} (hx : Reads P l a) (hy : Reads P l' b) :
    Triple False P (maxBy l l' comp) (fun r => if r = 0 then P else blk r 1 ∗ pts (r, 1) (.obj (some (if comp a b then b else a))) ∗ P) := by
  refine Triple.post (C50_max (nf := False) comp hx hy) fun r => ?_
  split
  · exact ent_pure_left fun _ => ent_refl _
  · exact ent_refl _

/-- `algo_min_by` with any allocator -/
theorem C65_min_partial (comp : V → V → Bool) {l l' : Loc} {a b : V} (hx : Reads P l a) (hy : Reads P l' b) :
    Triple False P (minBy l l' comp) (fun r => if r = 0 then P else blk r 1 ∗ pts (r, 1) (.obj (some (if comp a b then a else b))) ∗ P) := by
  refine Triple.post (C50_min (nf := False) comp hx hy) fun r => ?_
  split
  · exact ent_pure_left fun _ => ent_refl _
  · exact ent_refl _

end CC.IAlgo
