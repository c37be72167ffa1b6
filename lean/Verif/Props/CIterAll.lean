import Verif.Props.CIterAlgo
import Verif.Props.CIterSort
import Verif.Props.CList
import Verif.Props.CVector
/-!
# C62, C63, C64 for whole client programs

The theorems of C62–C64 speak about the memory just before a call.  Here whole programs of a client: it has iterator structs `x`, `y` (anything may be in them), stores `begin` and `end` of a container in
them and calls an algorithm.  The containers are stated as such (`C vs`: a list, forward list, vector or deque with elements `vs`, see `View` and Verif/IAlgo/Views.lean; for sets and maps see C74), so these theorems also show that
the hypotheses of C62–C64 are met, and the examples at the end run such programs in concrete memories.
-/
namespace CC.IAlgo
open CC CC.Tac CC.Iter CC.Algo
variable {V α : Type} {Z : Nat → Nat} {S S2 A G P F : HProp V} {r r2 : Src V} {C C2 : List V → HProp V} {x y x2 y2 i j : Nat} {vs us ws : List V} {comp : V → V → Bool} {low : Nat → Nat}

/-- `x = begin(c); y = end(c);` and then `m` -/
def whole (r : Src V) (x y : Addr) (m : M V α) : M V α := do
  let p ← r.first
  setIter x r.kind p.1 p.2
  let q ← r.last
  setIter y r.kind q.1 q.2
  m

theorem whole_spec {m : M V α} {Q : α → HProp V} (hr : r.Ok True Z S) (hk : Triple True (It r x 0 ∗ It r y r.len ∗ S ∗ F) m Q) : Triple True (rawIt x ∗ rawIt y ∗ S ∗ F) (whole r x y m) Q := by
  unfold whole
  refine Triple.pre (P' := S ∗ (rawIt x ∗ rawIt y ∗ F)) (by cancel) ?_
  refine Triple.fact (fun h hh => hr.node0 h _ hh 0 (Nat.zero_le _)) fun h0 => ?_
  refine Triple.fact (fun h hh => hr.node0 h _ hh r.len (Nat.le_refl _)) fun h1 => ?_
  refine Triple.bind (Triple.frame hr.first) fun p => ?_
  rw [sep_assoc]
  apply Triple.pure_left; rintro rfl
  refine Triple.pre (P' := rawIt x ∗ (S ∗ rawIt y ∗ F)) (by cancel) ?_
  refine setIter_cps hr.ty0 h0 ?_
  refine Triple.pre (P' := S ∗ (It r x 0 ∗ rawIt y ∗ F)) (by cancel) ?_
  refine Triple.bind (Triple.frame hr.last) fun p => ?_
  rw [sep_assoc]
  apply Triple.pure_left; rintro rfl
  refine Triple.pre (P' := rawIt y ∗ (S ∗ It r x 0 ∗ F)) (by cancel) ?_
  refine setIter_cps hr.ty0 h1 ?_
  exact Triple.pre (by cancel) hk

/-- the range of all elements -/
theorem spans_whole (hr : r.Ok True Z S) (hl : vs.length = r.len) : Spans Z S (It r x 0 ∗ It r y r.len ∗ G) r x y 0 vs.length :=
  ⟨hr, by omega, ⟨_, ent_refl _⟩, ⟨_, show _ ⊢ₛ It r y (0 + vs.length) ∗ _ by rw [hl, Nat.zero_add]; cancel⟩⟩

/-- `x = begin(c); y = end(c); c_iterator_t* q = NULL; algo_find_if(x, y, &q, pred)` for every container -/
theorem C62_find_if_whole (pred : V → Bool) (hc : View Z C r S) (hl : vs.length = r.len) {q : Loc} :
    Triple True (C vs ∗ rawIt x ∗ rawIt y ∗ pts q (.num 0)) (whole r x y (IAlgo.findIf x y (.var q) pred))
      (fun a => ∃ₛ k, ∃ₛ p, ⌜FoundFirst (Algo.At vs fun v => pred v = true) vs.length 0 (a.1, k) ∧ p ≠ 0⌝ ∗ C vs ∗ It r x 0 ∗ It r y r.len ∗ pts q (.num p) ∗ It r p k) := by
  rw [hc.eq vs hl]
  refine Triple.pre (P' := rawIt x ∗ rawIt y ∗ S ∗ (seg r.ref 0 vs ∗ pts q (.num 0))) (by cancel) ?_
  refine whole_spec hc.ok ?_
  refine Triple.pre (P' := seg r.ref 0 vs ∗ (pts q (.num 0) ∗ (It r x 0 ∗ It r y r.len ∗ emp)) ∗ S) (by cancel) ?_
  refine Triple.post (C62_find_if pred (spans_whole hc.ok hl) seg_rng .fresh) fun a => ?_
  refine ent_ex_left fun k => ent_pure_left fun hk => ?_
  rintro s hs
  rw [← sep_left_comm, hex_sep] at hs
  obtain ⟨p, hs⟩ := hs
  rw [sep_assoc, hpure_sep_apply] at hs
  refine ⟨k, p, hpure_sep_apply.2 ⟨⟨hk, hs.1⟩, ?_⟩⟩
  exact (show _ ⊢ₛ _ by cancel) s hs.2

/-- `algo_reverse` of every container with bidirectional iterators -/
theorem C63_reverse_whole (hc : View Z C r S) (hm : r.kind.type < 7) (hb : r.kind.bidir) (hl : vs.length = r.len) :
    Triple True (C vs ∗ rawIt x ∗ rawIt y) (whole r x y (IAlgo.reverse x y)) (fun q => ⌜q = vs.length⌝ ∗ C vs.reverse ∗ It r x 0 ∗ It r y r.len) := by
  rw [hc.eq vs hl, hc.eq vs.reverse (by simpa using hl)]
  refine Triple.pre (P' := rawIt x ∗ rawIt y ∗ S ∗ seg r.ref 0 vs) (by cancel) ?_
  refine whole_spec hc.ok ?_
  refine Triple.pre (P' := seg r.ref 0 vs ∗ (It r x 0 ∗ It r y r.len ∗ emp) ∗ S) (by cancel) ?_
  refine Triple.post (C63_reverse (spans_whole hc.ok hl) hm hb hc.real) fun a => ?_
  cancel

/-- copying a whole container over (the beginning of) another one of any kind that is at least as long -/
theorem C63_copy_whole (hc : View Z C r S) (hc2 : View Z C2 r2 S2) (hm : r2.kind.type < 7) (hl : vs.length = r.len) (hl2 : us.length = r2.len) (hle : vs.length ≤ us.length) (hlow : ∀ q, q ≠ 0 → 2 ≤ low q) :
    Triple True (C vs ∗ C2 us ∗ rawIt x ∗ rawIt y ∗ rawIt x2 ∗ rawIt y2) (whole r x y (whole r2 x2 y2 (IAlgo.copy low x y x2 (.var (0, 0)))))
      (fun q => ⌜q.1 = vs.length⌝ ∗ C vs ∗ C2 (vs ++ us.drop vs.length) ∗ It r x 0 ∗ It r y r.len ∗ It r2 x2 0 ∗ It r2 y2 r2.len) := by
  have ho : over us vs = vs ++ us.drop vs.length := rfl
  rw [hc.eq vs hl, hc2.eq us hl2, hc2.eq (vs ++ us.drop vs.length) (by simp; omega)]
  refine Triple.pre (P' := rawIt x ∗ rawIt y ∗ S ∗ (S2 ∗ rawIt x2 ∗ rawIt y2 ∗ seg r.ref 0 vs ∗ seg r2.ref 0 us)) (by cancel) ?_
  refine whole_spec hc.ok ?_
  refine Triple.pre (P' := rawIt x2 ∗ rawIt y2 ∗ S2 ∗ (S ∗ It r x 0 ∗ It r y r.len ∗ seg r.ref 0 vs ∗ seg r2.ref 0 us)) (by cancel) ?_
  refine whole_spec hc2.ok ?_
  have h1 := hc.ok.frame (G := S2)
  have h2 := hc2.ok.frame (G := S)
  rw [sep_comm] at h2
  refine Triple.pre (P' := seg r.ref 0 vs ∗ seg r2.ref 0 us ∗ (It r x 0 ∗ It r y r.len ∗ (It r2 x2 0 ∗ It r2 y2 r2.len)) ∗ (S ∗ S2)) (by cancel) ?_
  refine Triple.post (C63_copy (r2 := r2) (dFirst := x2) (spans_whole h1 hl) seg_rng ⟨h2, by omega, ⟨_, show _ ⊢ₛ It r2 x2 0 ∗ _ by cancel⟩⟩ hm hle hlow .null) fun a => ?_
  rw [ho]
  cancel

/-- `algo_sort` of a whole vector or deque with up to 512 elements -/
theorem C64_sort_whole_partial (hsw : StrictWeak comp) (hn : vs.length ≤ 512) (hc : View Z C r S) (hx : Rand S r) (hl : vs.length = r.len) (hlow : ∀ q, q ≠ 0 → 3 ≤ low q) :
    Triple True (C vs ∗ rawIt x ∗ rawIt y) (whole r x y (IAlgo.sort Z low x y comp)) (fun _ => ∃ₛ ws, ⌜ws.Perm vs ∧ Sorted comp ws⌝ ∗ C ws ∗ It r x 0 ∗ It r y r.len) := by
  rw [hc.eq vs hl]
  refine Triple.pre (P' := rawIt x ∗ rawIt y ∗ S ∗ seg r.ref 0 vs) (by cancel) ?_
  refine whole_spec hc.ok ?_
  refine Triple.pre (P' := seg r.ref 0 vs ∗ (It r x 0 ∗ It r y r.len ∗ emp) ∗ S) (by cancel) ?_
  refine Triple.post (C64_sort_short_partial hsw hn (spans_whole hc.ok hl) hx hlow) fun a => ?_
  refine ent_ex_left fun ws => ent_pure_left fun hw => ?_
  refine ent_ex_right ws (ent_pure_right hw ?_)
  rw [hc.eq ws (by rw [hw.1.length_eq, hl])]
  cancel

/-- heap sort: `algo_make_heap; algo_sort_heap` of a whole vector or deque of any size -/
theorem C64_heap_sort_whole (hsw : StrictWeak comp) (hc : View Z C r S) (hx : Rand S r) (hf : r.Far S) (hl : vs.length = r.len) :
    Triple True (C vs ∗ rawIt x ∗ rawIt y) (whole r x y (do IAlgo.makeHeap Z x y comp; IAlgo.sortHeap Z x y comp))
      (fun _ => ∃ₛ ws, ⌜ws.Perm vs ∧ Sorted comp ws⌝ ∗ C ws ∗ It r x 0 ∗ It r y r.len) := by
  rw [hc.eq vs hl]
  refine Triple.pre (P' := rawIt x ∗ rawIt y ∗ S ∗ seg r.ref 0 vs) (by cancel) ?_
  refine whole_spec hc.ok ?_
  refine Triple.pre (P' := seg r.ref 0 vs ∗ (It r x 0 ∗ It r y r.len ∗ emp) ∗ S) (by cancel) ?_
  refine Triple.bind (C64_make_heap_partial hsw (spans_whole hc.ok hl) hx hf) fun _ => ?_
  apply Triple.ex_left; intro hs
  apply Triple.pure_left; rintro ⟨hp, hh⟩
  refine Triple.post (C64_sort_heap hsw hh (spans_whole hc.ok (by rw [hp.length_eq, hl])) hx) fun a => ?_
  refine ent_ex_left fun ws => ent_pure_left fun hw => ?_
  refine ent_ex_right ws (ent_pure_right ⟨hw.1.trans hp, hw.2⟩ ?_)
  rw [hc.eq ws (by rw [hw.1.length_eq, hp.length_eq, hl])]
  cancel

/-! ## concrete memories -/

/-- memory for another iterator struct -/
theorem exists_struct {P : HProp V} {m : Mem V} (ho : ∀ t, m.orc t ≠ 0) (hm : P m.cells) : ∃ (m' : Mem V) (x : Addr), (∀ t, m'.orc t ≠ 0) ∧ (rawIt x ∗ P) m'.cells := by
  have h : Triple True emp (mallocS 5 : M V Nat) (fun a => rawIt a) := by
    rw [← bind_pure (mallocS 5)]
    refine Triple.mallocG_spec (fun h => absurd trivial h) fun a j ha => ?_
    apply Triple.ret
    unfold rawIt
    rw [sep_emp]
    exact sep_mono (ent_refl _) (ent_ex_right _ (ent_pure_right (by simp) (ent_refl _)))
  obtain ⟨a, m', _, ho', hm'⟩ := h.run (F := P) (s := m) (fun _ => ho) (by rw [emp_sep]; exact hm)
  exact ⟨m', a, by rw [ho']; exact ho, hm'⟩

theorem lt_strictWeak : StrictWeak (fun a b : Nat => decide (a < b)) := by
  constructor <;> intros <;> simp_all <;> omega

/-- sorting the vector 3, 1, 2 in a concrete memory -/
example : ∃ (m m' : Mem Nat) (v b x y : Addr), whole (vecSrc v b 1 3) x y (IAlgo.sort (fun _ => 4) (fun _ => 8) x y fun a b => decide (a < b)) m = some (.ok ((), m')) ∧
    ∃ F, (Vec.isVec (T := fun _ => plainOps Vec.intTy) (ty := 1) (plainSpec (nf := True) Vec.intTy) v b 3 [3, 1, 2] ∗ F) m.cells ∧
      ∃ F', (Vec.isVec (T := fun _ => plainOps Vec.intTy) (ty := 1) (plainSpec (nf := True) Vec.intTy) v b 3 [1, 2, 3] ∗ F') m'.cells := by
  obtain ⟨m, v, b, ho, hm⟩ := Vec.exists_vec (V := Nat) Vec.intTy 1 (by simp) [3, 1, 2] (by simp)
  rw [show [3, 1, 2].length = 3 from rfl] at hm
  obtain ⟨m, x, ho, hm⟩ := exists_struct ho hm
  obtain ⟨m, y, ho, hm⟩ := exists_struct ho hm
  have ht := C64_sort_whole_partial (Z := fun _ => 4) (low := fun _ => 8) (x := x) (y := y) (vs := [3, 1, 2]) lt_strictWeak (by simp)
    (vec_view (nf := True) (t := Vec.intTy) (ty := 1) (v := v) (b := b) (cap := 3) (n := 3) (by simp) (by simp) (by simp)) vec_rand rfl (by simp)
  obtain ⟨_, m', h, _, hm'⟩ := ht.run (F := live (plainSpec (nf := True) Vec.intTy) 1 1 [3, 1, 2]) (s := m) (fun _ => ho) ((show _ ⊢ₛ _ by cancel) _ hm)
  refine ⟨m, m', v, b, x, y, h, _, (show _ ⊢ₛ _ by cancel) _ hm, ?_⟩
  rw [hex_sep] at hm'
  obtain ⟨ws, hm'⟩ := hm'
  rw [sep_assoc, hpure_sep_apply] at hm'
  obtain ⟨⟨hp, hsd⟩, hm'⟩ := hm'
  have : ws = [1, 2, 3] := by
    have hp2 : ws.Perm [1, 2, 3] := hp.trans (by decide)
    refine hp2.eq_of_pairwise (le := fun a b => a ≤ b) (fun a b _ _ h1 h2 => Nat.le_antisymm h1 h2) ?_ (by decide)
    unfold Sorted at hsd
    exact hsd.imp (by simp)
  subst this
  exact ⟨_, (show _ ⊢ₛ _ by cancel) _ hm'⟩

/-- searching the element 1 in the list 3, 1, 2, in a concrete memory: the fresh iterator the algorithm stored in the variable `q` is at position 1 -/
example : ∃ (m m' : Mem Nat) (l s x y q : Addr) (xs : List (CList.Elem Nat)) (p : Nat), CList.vals xs = [3, 1, 2] ∧
    whole (listSrc l s 1 xs) x y (IAlgo.findIf x y (.var (q, 1)) fun a => a == 1) m = some (.ok ((true, p), m')) ∧
      ∃ F, (CList.isList l s 1 xs ∗ F) m.cells ∧ ∃ F' q', (CList.isList l s 1 xs ∗ pts (q, 1) (.num q') ∗ It (listSrc l s 1 xs) q' 1 ∗ F') m'.cells := by
  obtain ⟨m, l, s, xs, ho, hxs, hm⟩ := CList.exists_list (V := Nat) (fun _ => ⟨0, fun a b => a < b, fun a b => a == b⟩) 1 (by simp) [3, 1, 2] (by simp)
  obtain ⟨m, x, ho, hm⟩ := exists_struct ho hm
  obtain ⟨m, y, ho, hm⟩ := exists_struct ho hm
  have h0 : Triple True emp (do let q ← mallocS 1; stN (q, 1) 0; pure q : M Nat Nat) (fun q => pts (q, 1) (.num 0) ∗ blk q 1) := by
    refine Triple.mallocG_spec (fun h => absurd trivial h) fun a j ha => ?_
    simp only [arr, sep_emp, List.range_succ, List.range_zero, List.nil_append, List.map_cons, List.map_nil]
    steps
    apply Triple.ret
    cancel
  obtain ⟨q, m, _, ho', hm⟩ := h0.run (s := m) (fun _ => ho) (by rw [emp_sep]; exact hm)
  have hl : xs.length = 3 := by
    have := congrArg List.length hxs
    simpa [CList.vals] using this
  have hset : setVals xs [3, 1, 2] = xs := by
    rw [← hxs]
    match xs, hl with
    | [a, b, c], _ => rfl
  have ht := C62_find_if_whole (Z := fun _ => 4) (x := x) (y := y) (q := (q, 1)) (vs := [3, 1, 2]) (fun a => a == 1) (list_view (l := l) (s := s) (ty := 1) (xs := xs) (by simp)) (by rw [show (listSrc l s 1 xs).len = xs.length from rfl, hl]; rfl)
  rw [hset] at ht
  obtain ⟨a, m', h, _, hm'⟩ := ht.run (s := m) (fun _ t => by rw [ho']; exact ho t) ((show _ ⊢ₛ _ by cancel) _ hm)
  rw [hex_sep] at hm'
  obtain ⟨k, hm'⟩ := hm'
  rw [hex_sep] at hm'
  obtain ⟨p, hm'⟩ := hm'
  rw [sep_assoc, hpure_sep_apply] at hm'
  obtain ⟨⟨hf, _⟩, hm'⟩ := hm'
  have hk : a.1 = true ∧ k = 1 := by
    have p1 : Algo.At [3, 1, 2] (fun v => (v == 1) = true) 1 := ⟨1, rfl, rfl⟩
    have p0 : ¬ Algo.At [3, 1, 2] (fun v => (v == 1) = true) 0 := by
      rintro ⟨v, hv, h⟩
      cases hv
      simp at h
    rcases hf with ⟨h1, k', ⟨h2, h3, h4⟩, h5⟩ | ⟨_, _, h⟩
    · refine ⟨h1, ?_⟩
      have h5 : k = 0 + k' := h5
      by_cases e0 : k' = 0
      · subst e0; exact absurd h3 p0
      · by_cases e1 : k' = 1
        · omega
        · exact absurd p1 (h4 1 (by omega))
    · exact absurd p1 (h 1 (by simp))
  obtain ⟨hk1, rfl⟩ := hk
  refine ⟨m, m', l, s, x, y, q, xs, a.2, hxs, ?_, _, (show _ ⊢ₛ _ by cancel) _ hm, _, p, (show _ ⊢ₛ _ by cancel) _ hm'⟩
  rw [h, show a = (true, a.2) by rw [← hk1]]

/-! ## the hypotheses of C62–C64 are met

One memory in which all hypotheses of the theorems of C62, C63 and C64 hold at once: two vectors with two iterators each (the ranges), a third one with an iterator (the destination), a value, and a variable
for the result that holds NULL. -/

/-- two iterators, `begin` and `end`, of a container in the memory -/
theorem more_its {m : Mem V} (hr : r.Ok True Z S) (ho : ∀ t, m.orc t ≠ 0) (hm : (S ∗ F) m.cells) :
    ∃ (m' : Mem V) (x y : Addr), (∀ t, m'.orc t ≠ 0) ∧ (S ∗ It r x 0 ∗ It r y r.len ∗ F) m'.cells := by
  obtain ⟨m, x, ho, hm⟩ := exists_struct ho hm
  obtain ⟨m, y, ho, hm⟩ := exists_struct ho hm
  have h := whole_spec (x := x) (y := y) (F := F) (m := (pure () : M V Unit)) (Q := fun _ => It r x 0 ∗ It r y r.len ∗ S ∗ F) hr (Triple.ret (ent_refl _))
  obtain ⟨_, m', _, ho', hm'⟩ := h.run (F := emp) (s := m) (fun _ => ho) ((show _ ⊢ₛ _ by cancel) _ hm)
  exact ⟨m', x, y, fun t => by rw [ho']; exact ho t, (show _ ⊢ₛ _ by cancel) _ hm'⟩

/-- a vector with the elements of an array in the memory -/
theorem more_vec (t : Ty V) {i ty : Nat} (hty : ty ≠ 0) (hvs : vs ≠ []) {m : Mem V} (ho : ∀ t, m.orc t ≠ 0) (hm : (live (plainSpec (nf := True) t) 1 i vs ∗ F) m.cells) :
    ∃ (m' : Mem V) (v b : Addr), (∀ t, m'.orc t ≠ 0) ∧
      (live (plainSpec (nf := True) t) 1 i vs ∗ Vec.isVec (T := fun _ => plainOps t) (ty := ty) (plainSpec (nf := True) t) v b vs.length vs ∗ F) m'.cells := by
  obtain ⟨v, m', _, ho', hm'⟩ := (Vec.createFromArray_spec (T := fun _ => plainOps t) (ty := ty) (e := plainSpec t) (ws := vs) (vb := 1) (vi := i)
    (plain_plain t) hty (by omega) hvs).run (F := F) (s := m) (fun _ => ho) hm
  rw [sep_assoc, ← sep_left_comm, hex_sep] at hm'
  obtain ⟨b, hm'⟩ := hm'
  exact ⟨m', v, b, fun t => by rw [ho']; exact ho t, (show _ ⊢ₛ _ by cancel) _ hm'⟩

theorem exists_call (vs us zs : List Nat) (w : Nat) (hvs : vs ≠ []) (hus : us ≠ []) (hzs : zs ≠ []) (h1 : vs.length < 1000) (h2 : us.length < 1000) (h3 : zs.length < 1000) :
    ∃ (m : Mem Nat) (r1 r2 r3 : Src Nat) (S G A P F : HProp Nat) (B : Nat → HProp Nat) (x1 y1 x2 y2 x3 : Addr) (l q : Loc), (∀ t, m.orc t ≠ 0) ∧
      Spans (fun _ => 4) S G r1 x1 y1 0 vs.length ∧ Spans (fun _ => 4) S G r2 x2 y2 0 us.length ∧ Stands (fun _ => 4) S G r3 x3 0 zs.length ∧
      Rng P r1.ref 0 vs ∧ Rng P r2.ref 0 us ∧ Reads P l w ∧ l.1 ≠ 0 ∧ OutArg r1 (.var q) G A B ∧ OutArg r3 (.var q) G A (fun k => ∃ₛ p, ⌜p ≠ 0⌝ ∗ pts q (.num p) ∗ It r3 p k ∗ G) ∧
      Rand S r1 ∧ r1.Far S ∧ Rand S r3 ∧ r3.kind.type < 7 ∧
      (P ∗ seg r3.ref 0 zs ∗ A ∗ S ∗ F) m.cells := by
  obtain ⟨m, ho, hm⟩ := exists_array (vs ++ us ++ zs ++ [w]) (fun _ => 1)
  have ho : ∀ t, m.orc t ≠ 0 := fun t => by rw [ho]; simp
  rw [List.map_append, List.map_append, List.map_append, arr_append, arr_append, arr_append] at hm
  simp only [List.length_append, List.length_map, List.map_cons, List.map_nil, arr, sep_emp] at hm
  generalize hw : (1 + (vs.length + us.length + zs.length)) = n at hm
  have hm : (live (plainSpec (nf := True) Vec.intTy) 1 1 vs ∗ live (plainSpec (nf := True) Vec.intTy) 1 (1 + vs.length) us ∗ live (plainSpec (nf := True) Vec.intTy) 1 (1 + (vs.length + us.length)) zs ∗
      pts (1, n) (.obj (some w))) m.cells := by
    rw [sep_assoc, sep_assoc] at hm
    exact sep_mono Vec.plain_live (sep_mono Vec.plain_live (sep_mono Vec.plain_live (ent_refl _))) _ hm
  obtain ⟨m, v1, b1, ho, hm⟩ := more_vec (ty := 1) Vec.intTy (by omega) hvs ho hm
  obtain ⟨m, v2, b2, ho, hm⟩ := more_vec (ty := 1) Vec.intTy (by omega) hus ho ((show _ ⊢ₛ _ by cancel) _ hm)
  obtain ⟨m, v3, b3, ho, hm⟩ := more_vec (ty := 1) Vec.intTy (by omega) hzs ho ((show _ ⊢ₛ _ by cancel) _ hm)
  have w1 := vec_view (nf := True) (Z := fun _ => 4) (t := Vec.intTy) (ty := 1) (v := v1) (b := b1) (cap := vs.length) (n := vs.length) (by omega) (by omega) (by omega)
  have w2 := vec_view (nf := True) (Z := fun _ => 4) (t := Vec.intTy) (ty := 1) (v := v2) (b := b2) (cap := us.length) (n := us.length) (by omega) (by omega) (by omega)
  have w3 := vec_view (nf := True) (Z := fun _ => 4) (t := Vec.intTy) (ty := 1) (v := v3) (b := b3) (cap := zs.length) (n := zs.length) (by omega) (by omega) (by omega)
  rw [w1.eq vs rfl, w2.eq us rfl, w3.eq zs rfl] at hm
  have h0 : Triple True emp (do let q ← mallocS 1; stN (q, 1) 0; pure q : M Nat Nat) (fun q => pts (q, 1) (.num 0) ∗ blk q 1) := by
    refine Triple.mallocG_spec (fun h => absurd trivial h) fun a j ha => ?_
    simp only [arr, sep_emp, List.range_succ, List.range_zero, List.nil_append, List.map_cons, List.map_nil]
    steps
    apply Triple.ret
    cancel
  obtain ⟨q, m, _, ho', hm⟩ := h0.run (s := m) (fun _ => ho) (by rw [emp_sep]; exact hm)
  have ho : ∀ t, m.orc t ≠ 0 := fun t => by rw [ho']; exact ho t
  obtain ⟨m, x1, y1, ho, hm⟩ := more_its w1.ok ho ((show _ ⊢ₛ _ by cancel) _ hm)
  obtain ⟨m, x2, y2, ho, hm⟩ := more_its w2.ok ho ((show _ ⊢ₛ _ by cancel) _ hm)
  obtain ⟨m, x3, y3, ho, hm⟩ := more_its w3.ok ho ((show _ ⊢ₛ _ by cancel) _ hm)
  generalize hr1 : vecSrc (V := Nat) v1 b1 1 vs.length = r1 at w1 hm
  generalize hr2 : vecSrc (V := Nat) v2 b2 1 us.length = r2 at w2 hm
  generalize hr3 : vecSrc (V := Nat) v3 b3 1 zs.length = r3 at w3 hm
  have l1 : r1.len = vs.length := by subst hr1; rfl
  have l2 : r2.len = us.length := by subst hr2; rfl
  have l3 : r3.len = zs.length := by subst hr3; rfl
  have o1 := w1.ok.frame (G := vecS 1 v2 b2 us.length us.length ∗ vecS 1 v3 b3 zs.length zs.length)
  have o2 : r2.Ok True (fun _ => 4) (vecS 1 v1 b1 vs.length vs.length ∗ vecS 1 v2 b2 us.length us.length ∗ vecS 1 v3 b3 zs.length zs.length) := by
    have := w2.ok.frame (G := vecS 1 v1 b1 vs.length vs.length ∗ vecS 1 v3 b3 zs.length zs.length)
    rwa [sep_left_comm] at this
  have o3 : r3.Ok True (fun _ => 4) (vecS 1 v1 b1 vs.length vs.length ∗ vecS 1 v2 b2 us.length us.length ∗ vecS 1 v3 b3 zs.length zs.length) := by
    have := w3.ok.frame (G := vecS 1 v1 b1 vs.length vs.length ∗ vecS 1 v2 b2 us.length us.length)
    rwa [sep_comm, sep_assoc] at this
  refine ⟨m, r1, r2, r3, vecS 1 v1 b1 vs.length vs.length ∗ vecS 1 v2 b2 us.length us.length ∗ vecS 1 v3 b3 zs.length zs.length,
    It r1 x1 0 ∗ It r1 y1 r1.len ∗ It r2 x2 0 ∗ It r2 y2 r2.len ∗ It r3 x3 0, _, seg r1.ref 0 vs ∗ seg r2.ref 0 us ∗ pts (1, n) (.obj (some w)),
    It r3 y3 r3.len ∗ blk q 1 ∗ live (plainSpec (nf := True) Vec.intTy) 1 1 vs ∗ live (plainSpec (nf := True) Vec.intTy) 1 (1 + vs.length) us ∗ live (plainSpec (nf := True) Vec.intTy) 1 (1 + (vs.length + us.length)) zs, _, x1, y1, x2, y2, x3, (1, n), (q, 1), ho,
    ⟨o1, by omega, ⟨_, by cancel⟩, ⟨It r1 x1 0 ∗ It r2 x2 0 ∗ It r2 y2 r2.len ∗ It r3 x3 0, by rw [Nat.zero_add, ← l1]; cancel⟩⟩,
    ⟨o2, by omega, ⟨It r1 x1 0 ∗ It r1 y1 r1.len ∗ It r2 y2 r2.len ∗ It r3 x3 0, by cancel⟩, ⟨It r1 x1 0 ∗ It r1 y1 r1.len ∗ It r2 x2 0 ∗ It r3 x3 0, by rw [Nat.zero_add, ← l2]; cancel⟩⟩,
    ⟨o3, by omega, ⟨It r1 x1 0 ∗ It r1 y1 r1.len ∗ It r2 x2 0 ∗ It r2 y2 r2.len, by cancel⟩⟩,
    ?_, ?_, ?_, by simp, .fresh, .fresh, ?_, ?_, ?_, ?_, ?_⟩
  · exact seg_rng.left
  · exact seg_rng.left.right
  · exact Reads.pts.right.right
  · subst hr1
    exact ⟨vec_rand.bidir (S := vecS 1 v1 b1 vs.length vs.length), rfl, fun h F hh => w1.real h (vecS 1 v2 b2 us.length us.length ∗ vecS 1 v3 b3 zs.length zs.length ∗ F) ((show _ ⊢ₛ _ by cancel) _ hh), by show (3 : Nat) < 7; omega⟩
  · subst hr1; exact vec_far
  · subst hr3
    exact ⟨vec_rand.bidir (S := vecS 1 v3 b3 zs.length zs.length), rfl, fun h F hh => w3.real h (vecS 1 v1 b1 vs.length vs.length ∗ vecS 1 v2 b2 us.length us.length ∗ F) ((show _ ⊢ₛ _ by cancel) _ hh), by show (3 : Nat) < 7; omega⟩
  · subst hr3; show (3 : Nat) < 7; omega
  · exact (show _ ⊢ₛ _ by cancel) _ hm

/-- The remaining hypotheses of C62–C64, for the values of such a memory: sorted ranges 1 2 2 4 and 2 3, destination of seven elements, search for 2; the range 1 2 2 4 is partitioned by `< 3`, the range 4 2 1 is a heap;
`low` are the bits of pointers for which the assertions pass. -/
example : (∃ (m : Mem Nat) (r1 r2 r3 : Src Nat) (S G A P F : HProp Nat) (B : Nat → HProp Nat) (x1 y1 x2 y2 x3 : Addr) (l q : Loc), (∀ t, m.orc t ≠ 0) ∧
      Spans (fun _ => 4) S G r1 x1 y1 0 4 ∧ Spans (fun _ => 4) S G r2 x2 y2 0 2 ∧ Stands (fun _ => 4) S G r3 x3 0 7 ∧ Rng P r1.ref 0 [1, 2, 2, 4] ∧ Rng P r2.ref 0 [2, 3] ∧ Reads P l 2 ∧ l.1 ≠ 0 ∧
      OutArg r1 (.var q) G A B ∧ OutArg r3 (.var q) G A (fun k => ∃ₛ p, ⌜p ≠ 0⌝ ∗ pts q (.num p) ∗ It r3 p k ∗ G) ∧ Rand S r1 ∧ r1.Far S ∧ Rand S r3 ∧ r3.kind.type < 7 ∧
      (P ∗ seg r3.ref 0 [0, 0, 0, 0, 0, 0, 0] ∗ A ∗ S ∗ F) m.cells) ∧
    StrictWeak (fun a b : Nat => decide (a < b)) ∧ Sorted (fun a b : Nat => decide (a < b)) [1, 2, 2, 4] ∧ Sorted (fun a b : Nat => decide (a < b)) [2, 3] ∧
    IsHeap (fun a b : Nat => decide (a < b)) [4, 2, 1] ∧ (∀ q : Nat, q ≠ 0 → 3 ≤ (fun _ : Nat => 8) q) := by
  refine ⟨exists_call [1, 2, 2, 4] [2, 3] [0, 0, 0, 0, 0, 0, 0] 2 (by simp) (by simp) (by simp) (by simp) (by simp) (by simp), lt_strictWeak, ?_, ?_, ?_, fun _ _ => by simp⟩
  · simp [Sorted]
  · simp [Sorted]
  · intro k a b h0 ha hb
    rcases k with _ | _ | _ | k <;> simp at ha hb ⊢ <;> omega

end CC.IAlgo
