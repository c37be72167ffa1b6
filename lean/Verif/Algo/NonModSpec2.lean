import Verif.Algo.NonModSpec
/-!
# Proofs for `c_non_modifying.c`: searches with a second range
-/
namespace CC.Algo
open CC CC.Tac
variable {V : Type} {nf : Prop} {P : HProp V} {c d : Slots} {i j : Nat} {vs us : List V}

theorem amongLoop_spec {pred : V → V → Bool} {l : Loc} {a : V} (ha : Reads P l a) (h : Rng P d j us) :
    Triple nf P (amongLoop l d pred j (j + us.length)) (fun r => ⌜r = us.any (pred a)⌝ ∗ P) := by
  induction us generalizing j with
  | nil =>
    rw [amongLoop, if_neg (by simp)]
    apply Triple.ret
    cancel
  | cons u us ih =>
    rw [amongLoop, if_pos (by simp)]
    refine cmp_reads ha h.head ?_
    by_cases hp : pred a u = true
    · rw [if_pos hp]
      apply Triple.ret
      cancel
      simp [hp]
    · rw [if_neg hp, show j + (u :: us).length = j + 1 + us.length by simp; omega]
      refine Triple.post (ih h.tail) ?_
      intro r
      xsub
      cancel
      simp [hp]

theorem findFirstOf_spec {pred : V → V → Bool} (h : Rng P c i vs) (hu : Rng P d j us) :
    Triple nf P (findFirstOf c i (i + vs.length) d j (j + us.length) pred)
      (fun r => ⌜FoundFirst (At vs fun v => ∃ u, u ∈ us ∧ pred v u = true) vs.length i r⌝ ∗ P) := by
  unfold findFirstOf
  induction vs generalizing i with
  | nil =>
    rw [findFirstOfLoop, if_neg (by simp)]
    apply Triple.ret
    cancel
    exact Or.inr ⟨rfl, rfl, by simp⟩
  | cons v vs ih =>
    rw [findFirstOfLoop, if_pos (by simp)]
    refine Triple.bind (amongLoop_spec h.head hu) ?_
    intro r
    xsub
    by_cases hp : us.any (pred v) = true
    · rw [if_pos hp]
      apply Triple.ret
      cancel
      simp only [List.any_eq_true] at hp
      exact Or.inl ⟨rfl, 0, ⟨by simp, ⟨v, rfl, hp⟩, by omega⟩, rfl⟩
    · rw [if_neg hp, show i + (v :: vs).length = i + 1 + vs.length by simp; omega]
      refine Triple.post (ih h.tail) ?_
      intro r
      xintro hr
      cancel
      have h0 : ¬ At (v :: vs) (fun v => ∃ u, u ∈ us ∧ pred v u = true) 0 := by
        rintro ⟨v', hv', hh⟩
        simp at hv'; subst hv'
        exact hp (List.any_eq_true.2 hh)
      rcases hr with ⟨h1, k, ⟨h2, h3, h4⟩, h5⟩ | ⟨h1, h2, h3⟩
      · refine Or.inl ⟨h1, k + 1, ⟨by simpa using h2, h3, ?_⟩, by omega⟩
        intro m hm
        cases m with
        | zero => exact h0
        | succ m => exact h4 m (by omega)
      · refine Or.inr ⟨h1, by simp [h2]; omega, ?_⟩
        intro m hm
        cases m with
        | zero => exact h0
        | succ m => exact h3 m (by simpa using hm)

theorem lastLoop_spec {search : Nat → M V (Bool × Nat)} {p : Nat → Prop} {n m : Nat} {acc : Bool × Nat} (hm : m ≤ n)
    (hs : ∀ m, m ≤ n → Triple nf P (search (i + m)) (fun r => ⌜FoundFirst (fun k => p (m + k)) (n - m) (i + m) r⌝ ∗ P)) :
    Triple nf P (lastLoop search (i + m) acc)
      (fun r => ⌜(∃ k, m ≤ k ∧ IsLast p n k ∧ r = (true, i + k)) ∨ (r = acc ∧ ∀ k, m ≤ k → k < n → ¬ p k)⌝ ∗ P) := by
  induction hk : n - m using Nat.strongRecOn generalizing m acc with
  | _ t ih =>
    rw [lastLoop]
    refine Triple.bind (hs m hm) ?_
    intro r
    xintro h
    rcases h with ⟨h1, k, ⟨h2, h3, h4⟩, h5⟩ | ⟨h1, h2, h3⟩
    · rw [if_pos h1, h5]
      have := @ih (n - (m + k + 1)) (by omega) (m + k + 1) (true, i + m + k) (by omega) rfl
      rw [show i + (m + k + 1) = i + m + k + 1 by omega] at this
      refine Triple.post this ?_
      intro r'
      xintro h
      cancel
      rcases h with ⟨k', h6, h7, h8⟩ | ⟨h6, h7⟩
      · exact Or.inl ⟨k', by omega, h7, h8⟩
      · refine Or.inl ⟨m + k, by omega, ⟨by omega, h3, ?_⟩, by rw [h6, Nat.add_assoc]⟩
        intro j hj hjn
        exact h7 j (by omega) hjn
    · rw [h1, if_neg (by simp)]
      apply Triple.ret
      cancel
      refine Or.inr ⟨rfl, ?_⟩
      intro k hmk hkn
      have : ¬ p (m + (k - m)) := h3 (k - m) (by omega)
      rwa [show m + (k - m) = k by omega] at this

theorem foundLast_of {p : Nat → Prop} {n : Nat} {r : Bool × Nat}
    (h : (∃ k, 0 ≤ k ∧ IsLast p n k ∧ r = (true, i + k)) ∨ (r = (false, i + n) ∧ ∀ k, 0 ≤ k → k < n → ¬ p k)) : FoundLast p n i r := by
  rcases h with ⟨k, _, h1, rfl⟩ | ⟨rfl, h⟩
  · exact Or.inl ⟨rfl, k, h1, rfl⟩
  · exact Or.inr ⟨rfl, rfl, fun j hj => h j (by omega) hj⟩

theorem FoundFirst.congr {p q : Nat → Prop} {n i : Nat} {r : Bool × Nat} (h : ∀ k, p k ↔ q k) (hf : FoundFirst p n i r) : FoundFirst q n i r := by
  have : p = q := funext fun k => propext (h k)
  rw [← this]; exact hf

theorem at_drop {q : V → Prop} {m k : Nat} : At (vs.drop m) q k ↔ At vs q (m + k) := by
  unfold At
  rw [List.getElem?_drop]

theorem findLastOf_spec {pred : V → V → Bool} (h : Rng P c i vs) (hu : Rng P d j us) :
    Triple nf P (findLastOf c i (i + vs.length) d j (j + us.length) pred)
      (fun r => ⌜FoundLast (At vs fun v => ∃ u, u ∈ us ∧ pred v u = true) vs.length i r⌝ ∗ P) := by
  unfold findLastOf
  refine Triple.post (lastLoop_spec (m := 0) (n := vs.length) (p := At vs fun v => ∃ u, u ∈ us ∧ pred v u = true) (by omega) ?_) ?_
  · intro m hm
    have := findFirstOf_spec (nf := nf) (pred := pred) (h.drop m) hu
    rw [List.length_drop, show i + m + (vs.length - m) = i + vs.length by omega] at this
    refine Triple.post this ?_
    intro r
    xintro hr
    cancel
    exact hr.congr fun k => at_drop
  · intro r
    xintro hr
    cancel
    exact foundLast_of hr

theorem adjacentLoop_spec {pred : V → V → Bool} {v : V} (h : Rng P c i (v :: vs)) :
    Triple nf P (adjacentLoop c pred i (i + 1) (i + 1 + vs.length))
      (fun r => ⌜(∃ k, IsFirst (AdjAt (v :: vs) fun a b => pred a b = true) vs.length k ∧ r = (i + k, i + k + 1)) ∨
        (r.2 = i + 1 + vs.length ∧ ∀ k, ¬ AdjAt (v :: vs) (fun a b => pred a b = true) k)⌝ ∗ P) := by
  induction vs generalizing i v with
  | nil =>
    rw [adjacentLoop, if_neg (by simp)]
    apply Triple.ret
    cancel
    refine Or.inr ⟨rfl, ?_⟩
    rintro k ⟨a, b, _, hb, _⟩
    simp at hb
  | cons u vs ih =>
    rw [adjacentLoop, if_pos (by simp)]
    refine cmp_reads h.head h.tail.head ?_
    by_cases hp : pred v u = true
    · rw [if_pos hp]
      apply Triple.ret
      cancel
      exact Or.inl ⟨0, ⟨by simp, ⟨v, u, rfl, rfl, hp⟩, by omega⟩, rfl⟩
    · rw [if_neg hp, show i + 1 + (u :: vs).length = i + 1 + 1 + vs.length by simp; omega]
      refine Triple.post (ih h.tail) ?_
      intro r
      xintro hr
      cancel
      have h0 : ¬ AdjAt (v :: u :: vs) (fun a b => pred a b = true) 0 := by
        rintro ⟨a, b, ha, hb, hab⟩
        simp at ha hb; subst ha hb
        exact hp hab
      rcases hr with ⟨k, ⟨h2, h3, h4⟩, h5⟩ | ⟨h2, h3⟩
      · refine Or.inl ⟨k + 1, ⟨by simpa using h2, h3, ?_⟩, by rw [h5, show i + 1 + k = i + (k + 1) by omega]⟩
        intro m hm
        cases m with
        | zero => exact h0
        | succ m => exact h4 m (by omega)
      · refine Or.inr ⟨h2, ?_⟩
        intro m
        cases m with
        | zero => exact h0
        | succ m => exact h3 m

theorem adjacentFind_spec {pred : V → V → Bool} (h : Rng P c i vs) :
    Triple nf P (adjacentFind c i (i + vs.length) pred)
      (fun r => ⌜FoundFirst (AdjAt vs fun a b => pred a b = true) vs.length i r⌝ ∗ P) := by
  unfold adjacentFind
  cases vs with
  | nil =>
    rw [if_pos (by simp)]
    apply Triple.ret
    cancel
    exact Or.inr ⟨rfl, rfl, by simp⟩
  | cons v vs =>
    rw [if_neg (by simp), show i + (v :: vs).length = i + 1 + vs.length by simp; omega]
    refine Triple.bind (adjacentLoop_spec h) ?_
    intro p
    xintro hp
    apply Triple.ret
    cancel
    rcases hp with ⟨k, ⟨h1, h2, h3⟩, rfl⟩ | ⟨h1, h2⟩
    · refine Or.inl ⟨by simp; omega, k, ⟨by simp; omega, h2, h3⟩, ?_⟩
      dsimp only
      rw [if_pos (by omega)]
    · refine Or.inr ⟨by simp [h1], ?_, fun j _ => h2 j⟩
      dsimp only
      rw [if_neg (by simp [h1]), List.length_cons]
      omega

theorem matchLoop_spec {pred : V → V → Bool} (h : Rng P c i vs) (hu : Rng P d j us) :
    Triple nf P (matchLoop c d pred i (i + vs.length) j (j + us.length))
      (fun r => ⌜r = j + us.length ↔ MatchAt vs us (fun a b => pred a b = true) 0⌝ ∗ P) := by
  induction us generalizing i j vs with
  | nil =>
    rw [matchLoop, if_neg (by simp)]
    apply Triple.ret
    cancel
    simp [MatchAt]
  | cons u us ih =>
    cases vs with
    | nil =>
      rw [matchLoop, if_neg (by simp)]
      apply Triple.ret
      cancel
      constructor
      · intro h; simp at h
      · intro h
        obtain ⟨a, b, ha, _⟩ := h 0 (by simp)
        simp at ha
    | cons v vs =>
      rw [matchLoop, if_pos (by simp)]
      refine cmp_reads h.head hu.head ?_
      by_cases hp : pred v u = true
      · rw [if_pos hp, show j + (u :: us).length = j + 1 + us.length by simp; omega, show i + (v :: vs).length = i + 1 + vs.length by simp; omega]
        refine Triple.post (ih h.tail hu.tail) ?_
        intro r
        xintro hr
        cancel
        rw [hr]
        constructor
        · intro hm t ht
          cases t with
          | zero => exact ⟨v, u, rfl, rfl, hp⟩
          | succ t =>
            obtain ⟨a, b, ha, hb, hab⟩ := hm t (by simpa using ht)
            exact ⟨a, b, by simpa [Nat.zero_add] using ha, by simpa using hb, hab⟩
        · intro hm t ht
          obtain ⟨a, b, ha, hb, hab⟩ := hm (t + 1) (by simpa using ht)
          exact ⟨a, b, by simpa [Nat.zero_add] using ha, by simpa using hb, hab⟩
      · rw [if_neg hp]
        apply Triple.ret
        cancel
        constructor
        · intro h; simp at h
        · intro h
          obtain ⟨a, b, ha, hb, hab⟩ := h 0 (by simp)
          simp at ha hb; subst ha hb
          exact absurd hab hp

theorem matchAt_drop {p : V → V → Prop} {m k : Nat} : MatchAt (vs.drop m) us p k ↔ MatchAt vs us p (m + k) := by
  unfold MatchAt
  simp only [List.getElem?_drop, Nat.add_assoc]

theorem search_spec {pred : V → V → Bool} (h : Rng P c i vs) (hu : Rng P d j us) :
    Triple nf P (search c i (i + vs.length) d j (j + us.length) pred)
      (fun r => ⌜FoundFirst (MatchAt vs us fun a b => pred a b = true) vs.length i r⌝ ∗ P) := by
  unfold search
  induction vs generalizing i with
  | nil =>
    rw [searchLoop, if_neg (by simp)]
    apply Triple.ret
    cancel
    exact Or.inr ⟨rfl, rfl, by simp⟩
  | cons v vs ih =>
    rw [searchLoop, if_pos (by simp)]
    refine Triple.bind (matchLoop_spec h hu) ?_
    intro s
    xintro hs
    by_cases hp : s = j + us.length
    · rw [if_pos hp]
      apply Triple.ret
      cancel
      exact Or.inl ⟨rfl, 0, ⟨by simp, hs.1 hp, by omega⟩, rfl⟩
    · rw [if_neg hp, show i + (v :: vs).length = i + 1 + vs.length by simp; omega]
      refine Triple.post (ih h.tail) ?_
      intro r
      xintro hr
      cancel
      have hsh : ∀ k, MatchAt vs us (fun a b => pred a b = true) k ↔ MatchAt (v :: vs) us (fun a b => pred a b = true) (k + 1) := by
        intro k
        have := matchAt_drop (vs := v :: vs) (us := us) (p := fun a b => pred a b = true) (m := 1) (k := k)
        rw [List.drop_one, List.tail_cons] at this
        rw [this, Nat.add_comm]
      have h0 := fun hh => hp (hs.2 hh)
      rcases hr with ⟨h1, k, ⟨h2, h3, h4⟩, h5⟩ | ⟨h1, h2, h3⟩
      · refine Or.inl ⟨h1, k + 1, ⟨by simpa using h2, (hsh k).1 h3, ?_⟩, by omega⟩
        intro m hm
        cases m with
        | zero => exact h0
        | succ m => rw [← hsh]; exact h4 m (by omega)
      · refine Or.inr ⟨h1, by simp [h2]; omega, ?_⟩
        intro m hm
        cases m with
        | zero => exact h0
        | succ m => rw [← hsh]; exact h3 m (by simpa using hm)

theorem searchLast_spec {pred : V → V → Bool} (h : Rng P c i vs) (hu : Rng P d j us) :
    Triple nf P (searchLast c i (i + vs.length) d j (j + us.length) pred)
      (fun r => ⌜FoundLast (MatchAt vs us fun a b => pred a b = true) vs.length i r⌝ ∗ P) := by
  unfold searchLast
  refine Triple.post (lastLoop_spec (m := 0) (n := vs.length) (p := MatchAt vs us fun a b => pred a b = true) (by omega) ?_) ?_
  · intro m hm
    have := search_spec (nf := nf) (pred := pred) (h.drop m) hu
    rw [List.length_drop, show i + m + (vs.length - m) = i + vs.length by omega] at this
    refine Triple.post this ?_
    intro r
    xintro hr
    cancel
    exact hr.congr fun k => matchAt_drop
  · intro r
    xintro hr
    cancel
    exact foundLast_of hr

theorem runLoop_spec {pred : V → V → Bool} {value : Loc} {w : V} {n : Nat} (h : Rng P c i vs) (hw : Reads P value w) :
    Triple nf P (runLoop c value pred n i (i + vs.length))
      (fun r => ⌜∃ t, t ≤ n ∧ t ≤ vs.length ∧ r = (n - t, i + t) ∧ (∀ k, k < t → At vs (fun v => pred v w = true) k) ∧
        (t < n → ¬ At vs (fun v => pred v w = true) t)⌝ ∗ P) := by
  induction vs generalizing i n with
  | nil =>
    rw [runLoop, if_neg (by simp)]
    apply Triple.ret
    cancel
    exact ⟨0, by omega, by simp, rfl, by omega, fun _ => by simp [At]⟩
  | cons v vs ih =>
    cases n with
    | zero =>
      rw [runLoop, if_neg (by simp)]
      apply Triple.ret
      cancel
      exact ⟨0, by omega, by simp, rfl, by omega, by omega⟩
    | succ n =>
      rw [runLoop, if_pos (by simp)]
      refine cmp_reads h.head hw ?_
      by_cases hp : pred v w = true
      · rw [if_pos hp, show i + (v :: vs).length = i + 1 + vs.length by simp; omega]
        refine Triple.post (ih (n := n) h.tail) ?_
        intro r
        xintro hr
        cancel
        obtain ⟨t, h1, h2, rfl, h3, h4⟩ := hr
        refine ⟨t + 1, by omega, by simpa using h2, by rw [Nat.add_sub_add_right, show i + 1 + t = i + (t + 1) by omega], ?_, ?_⟩
        · intro k hk
          cases k with
          | zero => exact ⟨v, rfl, hp⟩
          | succ k =>
            obtain ⟨x, hx, hpx⟩ := h3 k (by omega)
            exact ⟨x, by simpa using hx, hpx⟩
        · rintro ht ⟨x, hx, hpx⟩
          exact h4 (by omega) ⟨x, by simpa using hx, hpx⟩
      · rw [if_neg hp]
        apply Triple.ret
        cancel
        refine ⟨0, by omega, by simp, rfl, by omega, ?_⟩
        rintro _ ⟨x, hx, hpx⟩
        simp at hx; subst hx
        exact hp hpx

theorem searchNLoop_spec {pred : V → V → Bool} {value : Loc} {w : V} {n m : Nat} (hn : n ≠ 0) (h : Rng P c i vs) (hw : Reads P value w) (hm : m ≤ vs.length)
    (hno : ∀ k, k < m → ¬ RunAt vs n (fun v => pred v w = true) k) :
    Triple nf P (searchNLoop c value pred n (i + m) (i + vs.length))
      (fun r => ⌜FoundFirst (RunAt vs n fun v => pred v w = true) vs.length i r⌝ ∗ P) := by
  induction hk : vs.length - m using Nat.strongRecOn generalizing m with
  | _ t ih =>
    rw [searchNLoop]
    have hf := findBy_spec (nf := nf) (pred := pred) (h.drop m) hw
    rw [List.length_drop, show i + m + (vs.length - m) = i + vs.length by omega] at hf
    refine Triple.bind hf ?_
    intro r
    xintro hr
    rcases hr with ⟨h1, k, ⟨h2, h3, h4⟩, h5⟩ | ⟨h1, h2, h3⟩
    · rw [if_pos h1]
      have hr := runLoop_spec (nf := nf) (pred := pred) (n := n - 1) (h.drop (m + k + 1)) hw
      rw [List.length_drop, show i + (m + k + 1) + (vs.length - (m + k + 1)) = i + vs.length by omega, show i + (m + k + 1) = r.2 + 1 by omega] at hr
      refine Triple.bind hr ?_
      intro q
      xintro hq
      obtain ⟨s, h6, h7, rfl, h8, h9⟩ := hq
      have hkm : ∀ x, x < m + k → ¬ RunAt vs n (fun v => pred v w = true) x := by
        intro x hx hrun
        rcases Nat.lt_or_ge x m with hxm | hxm
        · exact hno x hxm hrun
        · have := h4 (x - m) (by omega)
          rw [at_drop, show m + (x - m) = x by omega] at this
          exact this (hrun 0 (by omega))
      rw [at_drop] at h3
      simp only [at_drop] at h8 h9
      by_cases hz : n - 1 - s = 0
      · rw [if_pos hz]
        apply Triple.ret
        cancel
        refine Or.inl ⟨rfl, m + k, ⟨by omega, ?_, hkm⟩, by simp only; omega⟩
        intro x hx
        cases x with
        | zero => exact h3
        | succ x =>
          have := h8 x (by omega)
          rwa [show m + k + 1 + x = m + k + (x + 1) by omega] at this
      · rw [if_neg hz]
        have := @ih (vs.length - (m + k + 1 + s)) (by omega) (m + k + 1 + s) (by omega) (by
          intro x hx hrun
          rcases Nat.lt_or_ge x (m + k) with hxm | hxm
          · exact hkm x hxm hrun
          · refine h9 (by omega) ?_
            have := hrun (m + k + 1 + s - x) (by omega)
            rwa [show x + (m + k + 1 + s - x) = m + k + 1 + s by omega] at this) rfl
        dsimp only
        rw [show r.2 + 1 + s = i + (m + k + 1 + s) by omega]
        exact this
    · rw [h1, if_neg (by simp)]
      apply Triple.ret
      cancel
      refine Or.inr ⟨rfl, rfl, ?_⟩
      intro x hx hrun
      rcases Nat.lt_or_ge x m with hxm | hxm
      · exact hno x hxm hrun
      · have := h3 (x - m) (by omega)
        rw [at_drop, show m + (x - m) = x by omega] at this
        exact this (hrun 0 (by omega))

theorem searchN_spec {pred : V → V → Bool} {value : Loc} {w : V} {n : Nat} (hn : n ≠ 0) (h : Rng P c i vs) (hw : Reads P value w) :
    Triple nf P (searchN c i (i + vs.length) n value pred)
      (fun r => ⌜FoundFirst (RunAt vs n fun v => pred v w = true) vs.length i r⌝ ∗ P) := by
  unfold searchN
  rw [if_neg hn]
  exact searchNLoop_spec (m := 0) hn h hw (by omega) (by omega)

theorem runAt_drop {p : V → Prop} {m k n : Nat} : RunAt (vs.drop m) n p k ↔ RunAt vs n p (m + k) := by
  unfold RunAt
  simp only [at_drop, Nat.add_assoc]

theorem searchLastN_spec {pred : V → V → Bool} {value : Loc} {w : V} {n : Nat} (hn : n ≠ 0) (h : Rng P c i vs) (hw : Reads P value w) :
    Triple nf P (searchLastN c i (i + vs.length) n value pred)
      (fun r => ⌜FoundLast (RunAt vs n fun v => pred v w = true) vs.length i r⌝ ∗ P) := by
  unfold searchLastN
  rw [if_neg hn]
  refine Triple.post (lastLoop_spec (m := 0) (n := vs.length) (p := RunAt vs n fun v => pred v w = true) (by omega) ?_) ?_
  · intro m hm
    have := searchN_spec (nf := nf) (pred := pred) hn (h.drop m) hw
    rw [List.length_drop, show i + m + (vs.length - m) = i + vs.length by omega] at this
    refine Triple.post this ?_
    intro r
    xintro hr
    cancel
    exact hr.congr fun k => runAt_drop
  · intro r
    xintro hr
    cancel
    exact foundLast_of hr

end CC.Algo
