import Verif.Algo.NonModSpec2
/-!
# Model of `algorithm/c_min_max.c` and proofs about it
-/
namespace CC.Algo
open CC CC.Tac
variable {V : Type} {nf : Prop} {P : HProp V} {c d : Slots} {i j : Nat} {vs us : List V}

/-- `algo_max_by`, c_min_max.c:30-43: a new object with the greater value (NULL if malloc fails) -/
def maxBy (x y : Loc) (comp : V → V → Bool) : M V Addr := do
  let r ← mallocO 1
  if r = 0 then pure 0 else do
  let b ← cmp comp x y
  let v ← ldV (if b then y else x)
  construct (r, 1) v
  pure r

/-- `algo_min_by`, c_min_max.c:45-58 -/
def minBy (x y : Loc) (comp : V → V → Bool) : M V Addr := do
  let r ← mallocO 1
  if r = 0 then pure 0 else do
  let b ← cmp comp x y
  let v ← ldV (if b then x else y)
  construct (r, 1) v
  pure r

/-- The loop of `algo_max_element_by`, c_min_max.c:75-82, and `algo_min_element_by` (106-113): `best` moves to the next element if that one is better. -/
def extLoop (better : Nat → Nat → M V Bool) (best first last : Nat) : M V Nat :=
  if first ≠ last then
    if first + 1 ≠ last then do
      if ← better best (first + 1) then extLoop better (first + 1) (first + 1) last else extLoop better best (first + 1) last
    else extLoop better best (first + 1) last
  else pure best
partial_fixpoint

/-- `algo_max_element_by`, c_min_max.c:60-89; returns `*max` -/
def maxElement (c : Slots) (first last : Nat) (comp : V → V → Bool) : M V Nat :=
  extLoop (fun best cur => cmp comp (c best) (c cur)) first first last

/-- `algo_min_element_by`, c_min_max.c:91-120; returns `*min` -/
def minElement (c : Slots) (first last : Nat) (comp : V → V → Bool) : M V Nat :=
  extLoop (fun best cur => cmp comp (c cur) (c best)) first first last

/-- loop of `algo_minmax_element_by`, c_min_max.c:141-152 -/
def minmaxLoop (c : Slots) (comp : V → V → Bool) (mn mx first last : Nat) : M V (Nat × Nat) :=
  if first ≠ last then
    if first + 1 ≠ last then do
      let b1 ← cmp comp (c (first + 1)) (c mn)
      let b2 ← cmp comp (c mx) (c (first + 1))
      minmaxLoop c comp (if b1 then first + 1 else mn) (if b2 then first + 1 else mx) (first + 1) last
    else minmaxLoop c comp mn mx (first + 1) last
  else pure (mn, mx)
partial_fixpoint

/-- `algo_minmax_element_by`, c_min_max.c:122-161; returns `*min` and `*max` -/
def minmaxElement (c : Slots) (first last : Nat) (comp : V → V → Bool) : M V (Nat × Nat) := minmaxLoop c comp first first first last

/-- `algo_clamp_by`, c_min_max.c:163-174 -/
def clamp (v lo hi : Loc) (comp : V → V → Bool) : M V Addr := do
  cassert (!(← cmp comp hi lo))
  if ← cmp comp v hi then maxBy v lo comp else minBy v hi comp

/-- loop of `algo_lexicographical_compare_by`, c_min_max.c:192-203: `ret` and the final positions -/
def lexLoop (c d : Slots) (comp : V → V → Bool) (first1 last1 first2 last2 : Nat) : M V (Bool × Nat × Nat) :=
  if first1 ≠ last1 ∧ first2 ≠ last2 then do
    if ← cmp comp (c first1) (d first2) then pure (true, first1, first2) else do
    if ← cmp comp (d first2) (c first1) then pure (false, first1, first2) else
    lexLoop c d comp (first1 + 1) last1 (first2 + 1) last2
  else pure (false, first1, first2)
partial_fixpoint

/-- `algo_lexicographical_compare_by`, c_min_max.c:176-212 -/
def lexCompare (c : Slots) (first1 last1 : Nat) (d : Slots) (first2 last2 : Nat) (comp : V → V → Bool) : M V Bool := do
  let r ← lexLoop c d comp first1 last1 first2 last2
  if r.2.1 = last1 ∧ r.2.2 ≠ last2 then pure true else pure r.1

/-! ## proofs -/

theorem maxBy_spec {x y : Loc} {a b : V} {comp : V → V → Bool} (hx : Reads P x a) (hy : Reads P y b) :
    Triple nf P (maxBy x y comp) (fun r => if r = 0 then ⌜¬ nf⌝ ∗ P else blk r 1 ∗ pts (r, 1) (.obj (some (if comp a b then b else a))) ∗ P) := by
  unfold maxBy
  apply mallocO1
  · intro h
    rw [if_pos rfl]
    apply Triple.ret
    rw [if_pos rfl]
    cancel
  · intro r hr
    rw [if_neg hr]
    refine cmp_reads hx.right.right hy.right.right ?_
    have : Reads P (if comp a b then y else x) (if comp a b then b else a) := by split <;> assumption
    refine ldV_reads this.right.right ?_
    step
    apply Triple.ret
    rw [if_neg hr]
    cancel

theorem minBy_spec {x y : Loc} {a b : V} {comp : V → V → Bool} (hx : Reads P x a) (hy : Reads P y b) :
    Triple nf P (minBy x y comp) (fun r => if r = 0 then ⌜¬ nf⌝ ∗ P else blk r 1 ∗ pts (r, 1) (.obj (some (if comp a b then a else b))) ∗ P) := by
  unfold minBy
  apply mallocO1
  · intro h
    rw [if_pos rfl]
    apply Triple.ret
    rw [if_pos rfl]
    cancel
  · intro r hr
    rw [if_neg hr]
    refine cmp_reads hx.right.right hy.right.right ?_
    have : Reads P (if comp a b then x else y) (if comp a b then a else b) := by split <;> assumption
    refine ldV_reads this.right.right ?_
    step
    apply Triple.ret
    rw [if_neg hr]
    cancel

/-- invariant of the loop: `k` is the first best of the first `m` elements, and better than all before it -/
def BestInv (bt : V → V → Bool) (vs : List V) (k m : Nat) : Prop :=
  k < m ∧ ∃ v, vs[k]? = some v ∧ (∀ j u, j < m → vs[j]? = some u → bt v u = false) ∧ (∀ j u, j < k → vs[j]? = some u → bt u v = true)

theorem BestInv.step {bt : V → V → Bool} (hsw : StrictWeak bt) {k m : Nat} {x : V} (h : BestInv bt vs k m) (hx : vs[m]? = some x) :
    BestInv bt vs (if bt (vs[k]?.getD x) x then m else k) (m + 1) := by
  obtain ⟨h1, v, h2, h3, h4⟩ := h
  rw [h2, Option.getD_some]
  cases hb : bt v x
  · refine ⟨by simp; omega, v, by simpa using h2, ?_, by simpa using h4⟩
    intro j u hj hu
    rcases Nat.lt_or_ge j m with hm | hm
    · exact h3 j u hm hu
    · obtain rfl : j = m := by omega
      rw [hx] at hu; cases hu; exact hb
  · have key : ∀ j u, j < m → vs[j]? = some u → bt u x = true := by
      intro j u hj hu
      cases hux : bt u x
      · have := hsw.negtrans (h3 j u hj hu) hux
        rw [hb] at this; cases this
      · rfl
    refine ⟨by simp, x, by simpa using hx, ?_, by simpa using key⟩
    intro j u hj hu
    rcases Nat.lt_or_ge j m with hm | hm
    · exact hsw.asymm (key j u hm hu)
    · obtain rfl : j = m := by omega
      rw [hx] at hu; cases hu; exact hsw.irrefl _

theorem BestInv.final {bt : V → V → Bool} (hsw : StrictWeak bt) {k : Nat} (h : BestInv bt vs k vs.length) : FirstBest bt vs k := by
  obtain ⟨h1, v, h2, h3, h4⟩ := h
  refine ⟨h1, ⟨v, h2, ?_⟩, ?_⟩
  · intro u hu
    obtain ⟨j, hj, rfl⟩ := List.getElem_of_mem hu
    exact h3 j _ hj (List.getElem?_eq_getElem hj)
  · rintro j hj ⟨u, hu, hn⟩
    have := hn v (List.mem_of_getElem? h2)
    rw [h4 j u hj hu] at this; cases this

theorem BestInv.init {bt : V → V → Bool} (hsw : StrictWeak bt) (h : vs ≠ []) : BestInv bt vs 0 1 := by
  cases vs with
  | nil => exact absurd rfl h
  | cons v vs =>
    refine ⟨by omega, v, rfl, ?_, by omega⟩
    intro j u hj hu
    obtain rfl : j = 0 := by omega
    cases hu; exact hsw.irrefl _

theorem extLoop_spec {better : Nat → Nat → M V Bool} {bt : V → V → Bool} {k m : Nat} (hsw : StrictWeak bt)
    (hb : ∀ k m (hk : k < vs.length) (hm : m < vs.length) {β : Type} {Q : β → HProp V} {K : Bool → M V β},
      Triple nf P (K (bt vs[k] vs[m])) Q → Triple nf P (better (i + k) (i + m) >>= K) Q)
    (hm : m < vs.length) (hinv : BestInv bt vs k (m + 1)) :
    Triple nf P (extLoop better (i + k) (i + m) (i + vs.length)) (fun r => ⌜∃ k, r = i + k ∧ FirstBest bt vs k⌝ ∗ P) := by
  induction hn : vs.length - m generalizing m k with
  | zero => omega
  | succ n ih =>
    rw [extLoop, if_pos (by omega)]
    by_cases hm1 : m + 1 = vs.length
    · rw [if_neg (by omega), extLoop, if_neg (by omega)]
      apply Triple.ret
      cancel
      rw [hm1] at hinv
      exact ⟨k, rfl, hinv.final hsw⟩
    · rw [if_pos (by omega), show i + m + 1 = i + (m + 1) by omega]
      have hk : k < vs.length := by have := hinv.1; omega
      refine hb k (m + 1) hk (by omega) ?_
      have hs := hinv.step hsw (List.getElem?_eq_getElem (by omega : m + 1 < vs.length))
      rw [List.getElem?_eq_getElem hk, Option.getD_some] at hs
      by_cases hq : bt vs[k] vs[m + 1] = true
      · rw [if_pos hq]; rw [if_pos hq] at hs
        exact ih (by omega) hs (by omega)
      · rw [if_neg hq]; rw [if_neg hq] at hs
        exact ih (by omega) hs (by omega)

theorem maxElement_spec {comp : V → V → Bool} (hsw : StrictWeak comp) (h : Rng P c i vs) (hne : vs ≠ []) :
    Triple nf P (maxElement c i (i + vs.length) comp) (fun r => ⌜∃ k, r = i + k ∧ FirstBest comp vs k⌝ ∗ P) := by
  unfold maxElement
  exact extLoop_spec (k := 0) (m := 0) hsw (fun k m hk hm {_ _ _} ht => cmp_reads (h k hk) (h m hm) ht) (by cases vs <;> simp_all) (BestInv.init hsw hne)

theorem flip_sw {comp : V → V → Bool} (hsw : StrictWeak comp) : StrictWeak (fun a b => comp b a) :=
  ⟨hsw.irrefl, fun a b c h1 h2 => hsw.trans _ _ _ h2 h1, fun a b c h1 h2 => (hsw.incomp_trans a b c h1.symm h2.symm).symm⟩

theorem minElement_spec {comp : V → V → Bool} (hsw : StrictWeak comp) (h : Rng P c i vs) (hne : vs ≠ []) :
    Triple nf P (minElement c i (i + vs.length) comp) (fun r => ⌜∃ k, r = i + k ∧ FirstBest (fun a b => comp b a) vs k⌝ ∗ P) := by
  unfold minElement
  exact extLoop_spec (k := 0) (m := 0) (bt := fun a b => comp b a) (flip_sw hsw) (fun k m hk hm {_ _ _} ht => cmp_reads (h m hm) (h k hk) ht)
    (by cases vs <;> simp_all) (BestInv.init (flip_sw hsw) hne)

theorem extLoop_empty {better : Nat → Nat → M V Bool} : extLoop better i i i = pure i := by rw [extLoop, if_neg (by simp)]

theorem minmaxLoop_spec {comp : V → V → Bool} {k l m : Nat} (hsw : StrictWeak comp) (h : Rng P c i vs)
    (hm : m < vs.length) (hk : BestInv (fun a b => comp b a) vs k (m + 1)) (hl : BestInv comp vs l (m + 1)) :
    Triple nf P (minmaxLoop c comp (i + k) (i + l) (i + m) (i + vs.length))
      (fun r => ⌜∃ k l, r = (i + k, i + l) ∧ FirstBest (fun a b => comp b a) vs k ∧ FirstBest comp vs l⌝ ∗ P) := by
  induction hn : vs.length - m generalizing m k l with
  | zero => omega
  | succ n ih =>
    rw [minmaxLoop, if_pos (by omega)]
    by_cases hm1 : m + 1 = vs.length
    · rw [if_neg (by omega), minmaxLoop, if_neg (by omega)]
      apply Triple.ret
      cancel
      rw [hm1] at hk hl
      exact ⟨k, l, rfl, hk.final (flip_sw hsw), hl.final hsw⟩
    · rw [if_pos (by omega), show i + m + 1 = i + (m + 1) by omega]
      have hk' : k < vs.length := by have := hk.1; omega
      have hl' : l < vs.length := by have := hl.1; omega
      have hm2 : m + 1 < vs.length := by omega
      refine cmp_reads (h (m + 1) hm2) (h k hk') ?_
      refine cmp_reads (h l hl') (h (m + 1) hm2) ?_
      have hs1 := hk.step (flip_sw hsw) (List.getElem?_eq_getElem hm2)
      have hs2 := hl.step hsw (List.getElem?_eq_getElem hm2)
      rw [List.getElem?_eq_getElem hk', Option.getD_some] at hs1
      rw [List.getElem?_eq_getElem hl', Option.getD_some] at hs2
      have := ih hm2 hs1 hs2 (by omega)
      simp only [apply_ite (fun x => i + x)] at this
      exact this

theorem minmaxElement_spec {comp : V → V → Bool} (hsw : StrictWeak comp) (h : Rng P c i vs) (hne : vs ≠ []) :
    Triple nf P (minmaxElement c i (i + vs.length) comp)
      (fun r => ⌜∃ k l, r = (i + k, i + l) ∧ FirstBest (fun a b => comp b a) vs k ∧ FirstBest comp vs l⌝ ∗ P) := by
  unfold minmaxElement
  exact minmaxLoop_spec (k := 0) (l := 0) (m := 0) hsw h (by cases vs <;> simp_all) (BestInv.init (flip_sw hsw) hne) (BestInv.init hsw hne)

theorem clamp_spec {v lo hi : Loc} {a x y : V} {comp : V → V → Bool} (hv : Reads P v a) (hlo : Reads P lo x) (hhi : Reads P hi y)
    (hlh : comp y x = false) :
    Triple nf P (clamp v lo hi comp) (fun r => if r = 0 then ⌜¬ nf⌝ ∗ P else
      blk r 1 ∗ pts (r, 1) (.obj (some (if comp a y then (if comp a x then x else a) else y))) ∗ P) := by
  unfold clamp
  refine cmp_reads hhi hlo ?_
  rw [hlh]
  step
  · rfl
  refine cmp_reads hv hhi ?_
  by_cases h : comp a y = true
  · simp only [if_pos h]
    exact maxBy_spec hv hlo
  · simp only [if_neg h]
    refine Triple.post (minBy_spec hv hhi) ?_
    intro r
    rw [if_neg h]
    exact ent_refl _

theorem lexLoop_spec {comp : V → V → Bool} (h1 : Rng P c i vs) (h2 : Rng P d j us) :
    Triple nf P (lexCompare c i (i + vs.length) d j (j + us.length) comp) (fun r => ⌜r = true ↔ LexLt comp vs us⌝ ∗ P) := by
  unfold lexCompare
  induction vs generalizing i j us with
  | nil =>
    rw [lexLoop, if_neg (by simp), pure_bind]
    cases us with
    | nil =>
      rw [if_neg (by simp)]
      apply Triple.ret
      cancel
      simp only [Bool.false_eq_true, false_iff]
      intro h; cases h
    | cons u us =>
      rw [if_pos (by simp)]
      apply Triple.ret
      cancel
      simp only [true_iff]
      exact .nil
  | cons v vs ih =>
    cases us with
    | nil =>
      rw [lexLoop, if_neg (by simp), pure_bind, if_neg (by simp)]
      apply Triple.ret
      cancel
      simp only [Bool.false_eq_true, false_iff]
      intro h; cases h
    | cons u us =>
      rw [lexLoop, if_pos (by simp)]
      simp only [bind_assoc]
      refine cmp_reads h1.head h2.head ?_
      by_cases hq : comp v u = true
      · rw [if_pos hq, pure_bind, if_neg (by simp)]
        apply Triple.ret
        cancel
        simp only [true_iff]
        exact .head hq
      · rw [if_neg hq]
        simp only [bind_assoc]
        refine cmp_reads h2.head h1.head ?_
        by_cases hq' : comp u v = true
        · rw [if_pos hq', pure_bind, if_neg (by simp)]
          apply Triple.ret
          cancel
          simp only [Bool.false_eq_true, false_iff]
          intro h
          cases h
          · contradiction
          · simp_all
        · rw [if_neg hq', show i + (v :: vs).length = i + 1 + vs.length by simp; omega, show j + (u :: us).length = j + 1 + us.length by simp; omega]
          refine Triple.post (ih h1.tail h2.tail) ?_
          intro r
          xintro hr
          cancel
          rw [hr]
          constructor
          · exact .tail (by simpa using hq) (by simpa using hq')
          · intro h
            cases h
            · contradiction
            · assumption

end CC.Algo
