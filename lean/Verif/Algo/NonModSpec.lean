import Verif.Algo.NonMod
import Verif.Spec.Search
/-!
# Specification and proofs for `c_non_modifying.c`
-/
namespace CC.Algo
open CC CC.Tac
variable {V : Type} {nf : Prop} {P : HProp V} {c d : Slots} {i j : Nat} {vs us : List V}

/-- the final position of a scan: everything before satisfies `q`, the position itself does not (unless it is the end) -/
theorem scan_spec {cond : Nat → M V Bool} {q : Nat → Bool} {n : Nat}
    (hc : ∀ k, k < n → ∀ {β : Type} {Q : β → HProp V} {K : Bool → M V β}, Triple nf P (K (q k)) Q → Triple nf P (cond (i + k) >>= K) Q) :
    Triple nf P (scan cond i (i + n)) (fun r => ⌜∃ k, r = i + k ∧ k ≤ n ∧ (∀ j, j < k → q j = true) ∧ (k < n → q k = false)⌝ ∗ P) := by
  induction n generalizing i q with
  | zero =>
    rw [scan, if_neg (by simp)]
    apply Triple.ret
    cancel
    exact ⟨0, rfl, by omega, by omega, by omega⟩
  | succ n ih =>
    rw [scan, if_pos (by omega)]
    refine hc 0 (by omega) ?_
    cases hq : q 0
    · rw [if_neg (by simp)]
      apply Triple.ret
      cancel
      exact ⟨0, rfl, by omega, by omega, fun _ => hq⟩
    · rw [if_pos rfl]
      have := ih (i := i + 1) (q := fun k => q (k + 1)) (fun k hk {β Q K} ht => by
        have := hc (k + 1) (by omega) (Q := Q) (K := K) ht
        rw [show i + (k + 1) = i + 1 + k by omega] at this
        exact this)
      rw [show i + 1 + n = i + (n + 1) by omega] at this
      refine Triple.post this ?_
      intro r
      xintro h
      cancel
      obtain ⟨k, rfl, h1, h2, h3⟩ := h
      refine ⟨k + 1, by omega, by omega, ?_, ?_⟩
      · intro j hj
        cases j with
        | zero => exact hq
        | succ j => exact h2 j (by omega)
      · intro h; exact h3 (by omega)

theorem scan_test {pred : V → Bool} (h : Rng P c i vs) :
    Triple nf P (scan (fun i => test pred (c i)) i (i + vs.length)) (fun r => ⌜∃ k, r = i + k ∧ k ≤ vs.length ∧
      (∀ j (hj : j < vs.length), j < k → pred vs[j] = true) ∧ (∀ hk : k < vs.length, pred vs[k] = false)⌝ ∗ P) := by
  refine Triple.post (scan_spec (q := fun k => if hk : k < vs.length then pred vs[k] else false) ?_) ?_
  · intro k hk β Q K ht
    refine test_reads (h k hk) ?_
    rw [dif_pos hk] at ht; exact ht
  · intro r
    xintro h
    cancel
    obtain ⟨k, h1, h2, h3, h4⟩ := h
    refine ⟨k, h1, h2, fun j hj hjk => ?_, fun hk => ?_⟩
    · have := h3 j hjk; rwa [dif_pos hj] at this
    · have := h4 hk; rwa [dif_pos hk] at this

theorem scan_not {q : V → Bool} {cond : Nat → M V Bool} (hc : ∀ k (hk : k < vs.length), ∀ {β : Type} {Q : β → HProp V} {K : Bool → M V β}, Triple nf P (K (q vs[k])) Q → Triple nf P (cond (i + k) >>= K) Q) :
    Triple nf P (scan (fun i => do pure (!(← cond i))) i (i + vs.length)) (fun r => ⌜∃ k, r = i + k ∧ k ≤ vs.length ∧
      (∀ j (hj : j < vs.length), j < k → q vs[j] = false) ∧ (∀ hk : k < vs.length, q vs[k] = true)⌝ ∗ P) := by
  refine Triple.post (scan_spec (q := fun k => if hk : k < vs.length then !q vs[k] else false) ?_) ?_
  · intro k hk β Q K ht
    simp only [bind_assoc, pure_bind]
    refine hc k hk ?_
    rw [dif_pos hk] at ht; exact ht
  · intro r
    xintro h
    cancel
    obtain ⟨k, h1, h2, h3, h4⟩ := h
    refine ⟨k, h1, h2, fun j hj hjk => ?_, fun hk => ?_⟩
    · have := h3 j hjk; rw [dif_pos hj] at this; simpa using this
    · have := h4 hk; rw [dif_pos hk] at this; simpa using this

theorem scan_not_test {pred : V → Bool} (h : Rng P c i vs) :
    Triple nf P (scan (fun i => do pure (!(← test pred (c i)))) i (i + vs.length)) (fun r => ⌜∃ k, r = i + k ∧ k ≤ vs.length ∧
      (∀ j (hj : j < vs.length), j < k → pred vs[j] = false) ∧ (∀ hk : k < vs.length, pred vs[k] = true)⌝ ∗ P) :=
  scan_not fun k hk {_ _ _} ht => test_reads (h k hk) ht

theorem allOf_spec {pred : V → Bool} (h : Rng P c i vs) :
    Triple nf P (allOf c i (i + vs.length) pred) (fun r => ⌜r = vs.all pred⌝ ∗ P) := by
  unfold allOf
  refine Triple.bind (scan_test h) ?_
  intro f
  xintro h
  obtain ⟨k, rfl, h1, h2, h3⟩ := h
  apply Triple.ret
  cancel
  rw [Bool.eq_iff_iff]
  simp only [beq_iff_eq, List.all_eq_true]
  constructor
  · intro hk x hx
    obtain ⟨j, hj, rfl⟩ := List.getElem_of_mem hx
    exact h2 j hj (by omega)
  · intro ha
    rcases Nat.lt_or_ge k vs.length with hk | hk
    · have h4 := h3 hk
      rw [ha _ (List.getElem_mem hk)] at h4
      cases h4
    · omega

theorem any_of_scan {pred : V → Bool} {k : Nat} (h1 : k ≤ vs.length)
    (h2 : ∀ j (hj : j < vs.length), j < k → pred vs[j] = false) (h3 : ∀ hk : k < vs.length, pred vs[k] = true) :
    k ≠ vs.length ↔ vs.any pred = true := by
  simp only [List.any_eq_true]
  constructor
  · intro hk
    exact ⟨vs[k], List.getElem_mem _, h3 (by omega)⟩
  · rintro ⟨x, hx, hp⟩ rfl
    obtain ⟨j, hj, rfl⟩ := List.getElem_of_mem hx
    rw [h2 j hj hj] at hp; cases hp

theorem anyOf_spec {pred : V → Bool} (h : Rng P c i vs) :
    Triple nf P (anyOf c i (i + vs.length) pred) (fun r => ⌜r = vs.any pred⌝ ∗ P) := by
  unfold anyOf
  refine Triple.bind (scan_not_test h) ?_
  intro f
  xintro h
  obtain ⟨k, rfl, h1, h2, h3⟩ := h
  apply Triple.ret
  cancel
  rw [Bool.eq_iff_iff, ← any_of_scan h1 h2 h3]
  simp

theorem noneOf_spec {pred : V → Bool} (h : Rng P c i vs) :
    Triple nf P (noneOf c i (i + vs.length) pred) (fun r => ⌜r = !vs.any pred⌝ ∗ P) := by
  unfold noneOf
  refine Triple.bind (scan_not_test h) ?_
  intro f
  xintro h
  obtain ⟨k, rfl, h1, h2, h3⟩ := h
  apply Triple.ret
  cancel
  have := any_of_scan h1 h2 h3
  by_cases hk : k = vs.length
  · subst hk
    simp at this ⊢
    exact this
  · rw [this.1 hk]
    simp [hk]

theorem forEachLoop_eq {op : Loc → M V Unit} {n m : Nat} :
    forEachLoop c op i (i + n) m = (do (List.range' i n).forM (fun k => op (c k)); pure (m + n)) := by
  induction n generalizing i m with
  | zero => rw [forEachLoop, if_neg (by simp)]; simp
  | succ n ih =>
    rw [forEachLoop, if_pos (by omega), show i + (n + 1) = i + 1 + n by omega, ih, List.range'_succ]
    simp only [List.forM_eq_forM, List.forM_cons, bind_assoc]
    congr 1; funext _; congr 1; funext _; congr 1; omega

theorem forEachN_eq {op : Loc → M V Unit} {n : Nat} :
    forEachN c i n op = (do (List.range' i n).forM (fun k => op (c k)); pure (i + n)) := by
  induction n generalizing i with
  | zero => rw [forEachN]; simp
  | succ n ih =>
    rw [forEachN, ih, List.range'_succ]
    simp only [List.forM_eq_forM, List.forM_cons, bind_assoc]
    congr 1; funext _; congr 1; funext _; congr 1; omega

theorem countLoop_spec {q : V → Bool} {cond : Nat → M V Bool} {m : Nat}
    (hc : ∀ k (hk : k < vs.length), ∀ {β : Type} {Q : β → HProp V} {K : Bool → M V β}, Triple nf P (K (q vs[k])) Q → Triple nf P (cond (i + k) >>= K) Q) :
    Triple nf P (countLoop cond i (i + vs.length) m) (fun r => ⌜r = m + vs.countP q⌝ ∗ P) := by
  induction vs generalizing i m with
  | nil =>
    rw [countLoop, if_neg (by simp)]
    apply Triple.ret
    cancel
  | cons v vs ih =>
    rw [countLoop, if_pos (by simp)]
    refine hc 0 (by simp) ?_
    have hih := fun m => ih (i := i + 1) (m := m) (fun k hk {β Q K} ht => by
        have := hc (k + 1) (by simpa using hk) (Q := Q) (K := K) ht
        rw [show i + (k + 1) = i + 1 + k by omega] at this
        exact this)
    rw [show i + (v :: vs).length = i + 1 + vs.length by simp; omega]
    simp only [List.getElem_cons_zero, List.countP_cons]
    by_cases hq : q v = true
    · simp only [if_pos hq]
      refine Triple.post (hih (m + 1)) ?_
      intro r
      xsub
      cancel
      omega
    · simp only [if_neg hq]
      exact hih m

theorem count_spec {eq : V → V → Bool} {value : Loc} {w : V} (h : Rng P c i vs) (hw : Reads P value w) :
    Triple nf P (count c i (i + vs.length) value eq) (fun r => ⌜r = vs.countP fun v => eq v w⌝ ∗ P) := by
  refine Triple.post (countLoop_spec (q := fun v => eq v w) (m := 0) fun k hk {_ _ _} ht => cmp_reads (h k hk) hw ht) ?_
  intro r
  rw [Nat.zero_add]
  exact ent_refl _

theorem countIf_spec {pred : V → Bool} (h : Rng P c i vs) :
    Triple nf P (countIf c i (i + vs.length) pred) (fun r => ⌜r = vs.countP pred⌝ ∗ P) := by
  refine Triple.post (countLoop_spec (q := pred) (m := 0) fun k hk {_ _ _} ht => test_reads (h k hk) ht) ?_
  intro r
  rw [Nat.zero_add]
  exact ent_refl _

theorem mismatchLoop_spec {pred : V → V → Bool} (h1 : Rng P c i vs) (h2 : Rng P d j us) (hl : vs.length ≤ us.length) :
    Triple nf P (mismatchLoop c d pred i (i + vs.length) j) (fun r => ⌜∃ k, r = (i + k, j + k) ∧ k ≤ vs.length ∧
      (∀ m (hm : m < vs.length), m < k → pred vs[m] us[m] = true) ∧ (∀ hk : k < vs.length, pred vs[k] us[k] = false)⌝ ∗ P) := by
  induction vs generalizing i j us with
  | nil =>
    rw [mismatchLoop, if_neg (by simp)]
    apply Triple.ret
    cancel
    exact ⟨0, rfl, by simp, by simp, by simp⟩
  | cons v vs ih =>
    obtain ⟨u, us, rfl⟩ : ∃ u us', us = u :: us' := by cases us with | nil => simp at hl | cons u us => exact ⟨u, us, rfl⟩
    rw [mismatchLoop, if_pos (by simp)]
    refine cmp_reads h1.head h2.head ?_
    cases hp : pred v u
    · rw [if_neg (by simp)]
      apply Triple.ret
      cancel
      exact ⟨0, rfl, by simp, by omega, fun _ => hp⟩
    · rw [if_pos rfl, show i + (v :: vs).length = i + 1 + vs.length by simp; omega]
      refine Triple.post (ih h1.tail h2.tail (by simpa using hl)) ?_
      intro r
      xintro h
      cancel
      obtain ⟨k, rfl, h3, h4, h5⟩ := h
      refine ⟨k + 1, by rw [Nat.add_assoc, Nat.add_assoc, Nat.add_comm 1 k], by simpa using h3, ?_, ?_⟩
      · intro m hm hmk
        cases m with
        | zero => exact hp
        | succ m => exact h4 m (by simpa using hm) (by omega)
      · intro hk; exact h5 (by simpa using hk)

theorem mismatch_spec {pred : V → V → Bool} (h1 : Rng P c i vs) (h2 : Rng P d j us) (hl : vs.length ≤ us.length) :
    Triple nf P (mismatch c i (i + vs.length) d j pred) (fun r => ⌜∃ k, r.2 = (i + k, j + k) ∧
      (r.1 = true ∧ IsFirst (fun m => ∃ a b, vs[m]? = some a ∧ us[m]? = some b ∧ pred a b = false) vs.length k ∨
       r.1 = false ∧ k = vs.length ∧ ∀ m, m < vs.length → ∃ a b, vs[m]? = some a ∧ us[m]? = some b ∧ pred a b = true)⌝ ∗ P) := by
  unfold mismatch
  refine Triple.bind (mismatchLoop_spec h1 h2 hl) ?_
  intro p
  xintro h
  obtain ⟨k, rfl, h3, h4, h5⟩ := h
  apply Triple.ret
  cancel
  refine ⟨k, rfl, ?_⟩
  have hm : ∀ m (hm : m < vs.length) (hu : m < us.length), m < k → ∃ a b, vs[m]? = some a ∧ us[m]? = some b ∧ pred a b = true := fun m hm hu hmk =>
    ⟨_, _, List.getElem?_eq_getElem hm, List.getElem?_eq_getElem hu, h4 m hm hmk⟩
  rcases Nat.lt_or_ge k vs.length with hk | hk
  · left
    refine ⟨by simp; omega, hk, ⟨_, _, List.getElem?_eq_getElem hk, List.getElem?_eq_getElem (by omega), h5 hk⟩, ?_⟩
    rintro m hmk ⟨a, b, ha, hb, hab⟩
    obtain ⟨a', b', ha', hb', hab'⟩ := hm m (by omega) (by omega) hmk
    rw [ha] at ha'; rw [hb] at hb'; cases ha'; cases hb'
    rw [hab] at hab'; cases hab'
  · right
    refine ⟨by simp; omega, by omega, fun m hml => hm m hml (by omega) (by omega)⟩

theorem equal_spec {pred : V → V → Bool} (h1 : Rng P c i vs) (h2 : Rng P d j us) (hl : vs.length ≤ us.length) :
    Triple nf P (equal c i (i + vs.length) d j pred) (fun r => ⌜r = (vs.zip us).all fun p => pred p.1 p.2⌝ ∗ P) := by
  unfold equal
  refine Triple.bind (mismatchLoop_spec h1 h2 hl) ?_
  intro p
  xintro h
  obtain ⟨k, rfl, h3, h4, h5⟩ := h
  apply Triple.ret
  cancel
  rw [Bool.eq_iff_iff]
  simp only [beq_iff_eq, List.all_eq_true]
  constructor
  · intro hk x hx
    obtain ⟨m, hm, rfl⟩ := List.getElem_of_mem hx
    simp only [List.length_zip] at hm
    rw [List.getElem_zip]
    exact h4 m (by omega) (by omega)
  · intro ha
    rcases Nat.lt_or_ge k vs.length with hk | hk
    · have := ha (vs[k], us[k]) (by
        rw [List.mem_iff_getElem]
        exact ⟨k, by simp; omega, by simp⟩)
      rw [h5 hk] at this; cases this
    · omega

theorem foundFirst_of {q : V → Bool} {k : Nat} (h1 : k ≤ vs.length)
    (h2 : ∀ j (hj : j < vs.length), j < k → q vs[j] = false) (h3 : ∀ hk : k < vs.length, q vs[k] = true) :
    FoundFirst (At vs fun v => q v = true) vs.length i (i + k != i + vs.length, i + k) := by
  rcases Nat.lt_or_ge k vs.length with hk | hk
  · refine Or.inl ⟨by simp; omega, k, ⟨hk, ⟨_, List.getElem?_eq_getElem hk, h3 hk⟩, ?_⟩, rfl⟩
    rintro j hj ⟨v, hv, hq⟩
    obtain ⟨hj', rfl⟩ := List.getElem?_eq_some_iff.1 hv
    rw [h2 j hj' hj] at hq; cases hq
  · obtain rfl : k = vs.length := by omega
    refine Or.inr ⟨by simp, rfl, ?_⟩
    rintro j hj ⟨v, hv, hq⟩
    obtain ⟨hj', rfl⟩ := List.getElem?_eq_some_iff.1 hv
    rw [h2 j hj' hj] at hq; cases hq

theorem findBy_spec {pred : V → V → Bool} {value : Loc} {w : V} (h : Rng P c i vs) (hw : Reads P value w) :
    Triple nf P (findBy c i (i + vs.length) value pred) (fun r => ⌜FoundFirst (At vs fun v => pred v w = true) vs.length i r⌝ ∗ P) := by
  unfold findBy
  refine Triple.bind (scan_not (q := fun v => pred v w) (cond := fun i => cmp pred (c i) value) fun k hk {_ _ _} ht => cmp_reads (h k hk) hw ht) ?_
  intro f
  xintro h
  obtain ⟨k, rfl, h1, h2, h3⟩ := h
  apply Triple.ret
  cancel
  exact foundFirst_of (q := fun v => pred v w) h1 h2 h3

theorem findIf_spec {pred : V → Bool} (h : Rng P c i vs) :
    Triple nf P (findIf c i (i + vs.length) pred) (fun r => ⌜FoundFirst (At vs fun v => pred v = true) vs.length i r⌝ ∗ P) := by
  unfold findIf
  refine Triple.bind (scan_not_test h) ?_
  intro f
  xintro h
  obtain ⟨k, rfl, h1, h2, h3⟩ := h
  apply Triple.ret
  cancel
  exact foundFirst_of h1 h2 h3

theorem findIfNot_spec {pred : V → Bool} (h : Rng P c i vs) :
    Triple nf P (findIfNot c i (i + vs.length) pred) (fun r => ⌜FoundFirst (At vs fun v => pred v = false) vs.length i r⌝ ∗ P) := by
  unfold findIfNot
  refine Triple.bind (scan_test h) ?_
  intro f
  xintro h
  obtain ⟨k, rfl, h1, h2, h3⟩ := h
  apply Triple.ret
  cancel
  have := foundFirst_of (i := i) (q := fun v => !pred v) h1 (fun j hj hjk => by rw [h2 j hj hjk]; rfl) (fun hk => by rw [h3 hk]; rfl)
  simpa using this

end CC.Algo
