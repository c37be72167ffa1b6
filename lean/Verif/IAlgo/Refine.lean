import Verif.Core.Cost
import Verif.Algo.Base
/-!
# Refinement: a program with hidden memory against a program without it

The algorithms work on iterator objects; the programs of Verif/Algo/*.lean work on positions and touch the elements only.  `Wp m c Ψ`: the program `m`, started in a memory whose cells are
exactly `c`, ends without a fault with a result and cells that satisfy `Ψ`, whatever the allocator (one that never fails).  A refinement is proved by running the iterator program in a memory that
consists of `c` and of hidden memory (iterators, links of the containers): each access to an element is made by both programs, everything else by one of them.
(`Wp` fixes the number of calls of malloc made so far and their results, which the rest of the program does not see.)
-/
namespace CC
variable {V α β γ : Type}

/-- exactly these cells -/
def Ex (c : Heap V) : HProp V := fun h => h = c

/-- `m` runs without a fault in a memory with cells `c`, and the result and the final cells satisfy `Ψ` -/
def Wp (m : M V α) (c : Heap V) (Ψ : α → Heap V → Prop) : Prop :=
  ∃ (N k : Nat) (o : Nat → Nat) (j : Nat → Nat → Nat), (∀ t, o t ≠ 0) ∧
    ∀ s : Mem V, s.cells = c → s.tick = N → k ≤ s.clk → (∀ t, t < N → s.orc t = o t ∧ s.junk t = j t) → (∀ t, s.orc t ≠ 0) → ∃ b s', m s = some (.ok (b, s')) ∧ Ψ b s'.cells

theorem Wp.of_triple {m : M V α} {P F : HProp V} {Q : α → HProp V} {c : Heap V} (h : Triple True P m Q) (hc : (P ∗ F) c) : Wp m c (fun a c' => (Q a ∗ F) c') := by
  refine ⟨0, 0, fun _ => 1, fun _ _ => 0, by simp, fun s hs _ _ _ ho => ?_⟩
  obtain ⟨a, s', e, _, hq⟩ := h s F (fun _ => ho) (by rw [hs]; exact hc)
  exact ⟨a, s', e, hq⟩

/-- a memory with fewer cells -/
def ghost (s : Mem V) (c : Heap V) (hc : ∀ l, s.cells l = none → c l = none) (orc : Nat → Nat) (junk : Nat → Nat → Nat) (tick clk : Nat) : Mem V where
  cells := c
  top := s.top
  hpos := s.hpos
  htop := fun l hl => hc l (s.htop l hl)
  hnul := fun i => hc (0, i) (s.hnul i)
  orc := orc
  junk := junk
  tick := tick
  clk := clk

theorem ex_sep_split {c : Heap V} {F G : HProp V} {h : Heap V} (hh : ((Ex c ∗ F) ∗ G) h) : ∃ d, Heap.disj c d ∧ h = Heap.union c d ∧ (F ∗ G) d := by
  rw [sep_assoc] at hh
  obtain ⟨h1, h2, hd, he, hp, hq⟩ := hh
  cases hp
  exact ⟨h2, hd, he, hq⟩

theorem ex_sep_join {c d : Heap V} {F G : HProp V} (hd : Heap.disj c d) (hq : (F ∗ G) d) : ((Ex c ∗ F) ∗ G) (Heap.union c d) := by
  rw [sep_assoc]
  exact ⟨c, d, hd, rfl, rfl, hq⟩

theorem union_none {c d : Heap V} {l : Loc} (h : Heap.union c d l = none) : c l = none := by
  simp only [Heap.union, Option.or_eq_none_iff] at h
  exact h.1

/-- both programs make the same access to the memory -/
def Vis (e : M V α) : Prop := ∀ (β γ : Type) (K' : α → M V β) (K : α → M V γ) (c : Heap V) (Ψ : β → Heap V → Prop) (F : HProp V) (Q : γ → HProp V),
  Wp (e >>= K') c Ψ → (∀ v c1, Wp (K' v) c1 Ψ → Triple True (Ex c1 ∗ F) (K v) Q) → Triple True (Ex c ∗ F) (e >>= K) Q

theorem Vis.pure (a : α) : Vis (pure a : M V α) := by
  intro β γ K' K c Ψ F Q hw hk
  rw [pure_bind] at hw ⊢
  exact hk a c hw

theorem Vis.bind {m : M V α} {k : α → M V β} (hm : Vis m) (hk : ∀ a, Vis (k a)) : Vis (m >>= k) := by
  intro β' γ K' K c Ψ F Q hw h
  rw [bind_assoc] at hw ⊢
  exact hm _ _ _ _ _ _ _ _ hw fun v c1 hw1 => hk v _ _ _ _ _ _ _ _ hw1 h

theorem Vis.ite {p : Prop} [Decidable p] {m m' : M V α} (h : Vis m) (h' : Vis m') : Vis (if p then m else m') := by
  split
  · exact h
  · exact h'

theorem Wp.start {m : M V α} {c d : Heap V} {Ψ : α → Heap V → Prop} (hw : Wp m c Ψ) (s : Mem V) (hs : s.cells = Heap.union c d) :
    ∃ orc junk tick clk b s', m (ghost s c (fun l hl => union_none (hs ▸ hl)) orc junk tick clk) = some (.ok (b, s')) ∧ Ψ b s'.cells := by
  obtain ⟨N, k, o, j, ho, h⟩ := hw
  exact ⟨o, j, N, k, h (ghost s c (fun l hl => union_none (hs ▸ hl)) o j N k) rfl rfl (Nat.le_refl _) (fun _ _ => ⟨rfl, rfl⟩) ho⟩

theorem Vis.fault (f : Fault) : Vis (fault f : M V α) := by
  intro β γ K' K c Ψ F Q hw _ s G _ hs
  obtain ⟨d, hd, he, hq⟩ := ex_sep_split hs
  obtain ⟨_, _, _, _, b, s', e, _⟩ := hw.start s he
  obtain ⟨a, s1, e1, _⟩ := bind_inv e
  cases e1
theorem Vis.ub : Vis (ub : M V α) := Vis.fault _

theorem load_some {s : Mem V} {l : Loc} {v : Val V} (h : s.cells l = some v) : load l s = some (.ok (v, s.bump)) := by
  unfold load
  simp only [bind, StateT.bind, get, getThe, MonadStateOf.get, StateT.get, ExceptT.bind, ExceptT.mk, ExceptT.bindCont, pure, ExceptT.pure, Option.bind, h]
  rfl

theorem load_inv {s s' : Mem V} {l : Loc} {v : Val V} (h : load l s = some (.ok (v, s'))) : s.cells l = some v ∧ s' = s.bump := by
  cases hc : s.cells l with
  | none =>
    unfold load at h
    simp only [bind, StateT.bind, get, getThe, MonadStateOf.get, StateT.get, ExceptT.bind, ExceptT.mk, ExceptT.bindCont, pure, ExceptT.pure, Option.bind, hc] at h
    cases h
  | some w =>
    rw [load_some hc] at h
    cases h
    exact ⟨rfl, rfl⟩

theorem Vis.load (l : Loc) : Vis (load l : M V (Val V)) := by
  intro β γ K' K c Ψ F Q hw hk s G hnf hs
  obtain ⟨d, hd, he, hq⟩ := ex_sep_split hs
  obtain ⟨_, _, _, _, b, s', e, _⟩ := hw.start s he
  obtain ⟨v, s1, e1, _⟩ := bind_inv e
  obtain ⟨hv, _⟩ := load_inv e1
  have hv : c l = some v := hv
  have hsv : s.cells l = some v := by rw [he]; simp [Heap.union, hv]
  have hw1 : Wp (K' v) c Ψ := by
    obtain ⟨N, k, o, j, ho, h⟩ := hw
    refine ⟨N, k + 1, o, j, ho, fun t ht h1 h2 h4 h3 => ?_⟩
    have := h { t with clk := t.clk - 1 } ht h1 (by show k ≤ t.clk - 1; omega) h4 h3
    obtain ⟨b, s', e, hb⟩ := this
    rw [bind_ok (load_some (s := { t with clk := t.clk - 1 }) (v := v) (by show t.cells l = _; rw [ht]; exact hv))] at e
    have e2 : Mem.bump { t with clk := t.clk - 1 } = t := by
      cases t
      simp only [Mem.bump, Mem.mk.injEq, true_and]
      simp only at h2
      omega
    rw [e2] at e
    exact ⟨b, s', e, hb⟩
  obtain ⟨a, s2, e2, ho, hq2⟩ := hk v c hw1 s.bump G hnf hs
  exact ⟨a, s2, by rw [bind_ok (load_some hsv)]; exact e2, ho, hq2⟩

theorem store_some {s : Mem V} {l : Loc} {v : Val V} (h : s.cells l ≠ none) :
    ∃ s1, store l v s = some (.ok ((), s1)) ∧ s1.cells = (fun l' => if l' = l then some v else s.cells l') ∧ s1.orc = s.orc ∧ s1.junk = s.junk ∧ s1.tick = s.tick ∧ s1.clk = s.clk + 1 ∧
      s1.top = s.top := by
  simp only [store, bind, StateT.bind, get, getThe, MonadStateOf.get, StateT.get, ExceptT.bind, ExceptT.mk, ExceptT.bindCont, pure, ExceptT.pure, Option.bind, h, ↓reduceDIte]
  exact ⟨_, rfl, rfl, rfl, rfl, rfl, rfl, rfl⟩

theorem Mem.ext' {s t : Mem V} (h1 : s.cells = t.cells) (h2 : s.top = t.top) (h3 : s.orc = t.orc) (h4 : s.junk = t.junk) (h5 : s.tick = t.tick) (h6 : s.clk = t.clk) : s = t := by
  cases s; cases t
  simp only at h1 h2 h3 h4 h5 h6
  subst h1 h2 h3 h4 h5 h6
  rfl

theorem Vis.store (l : Loc) (v : Val V) : Vis (store l v : M V Unit) := by
  intro β γ K' K c Ψ F Q hw hk s G hnf hs
  obtain ⟨d, hd, he, hq⟩ := ex_sep_split hs
  obtain ⟨_, _, _, _, b, s', e, _⟩ := hw.start s he
  obtain ⟨x, s1, e1, _⟩ := bind_inv e
  have hv : c l ≠ none := by
    intro hn
    rw [store_none (s := ghost s c _ _ _ _ _) hn] at e1
    cases e1
  have hsv : s.cells l ≠ none := by rw [he]; intro h; exact hv (union_none h)
  have hw1 : Wp (K' ()) (fun l' => if l' = l then some v else c l') Ψ := by
    obtain ⟨N, k, o, j, ho, h⟩ := hw
    refine ⟨N, k + 1, o, j, ho, fun t ht h1 h2 h4 h3 => ?_⟩
    let t0 : Mem V := ⟨c, t.top, t.hpos, (fun l' hl' => by
      have hx := t.htop l' hl'
      rw [ht] at hx
      by_cases hl : l' = l
      · simp [hl] at hx
      · simpa [hl] using hx), (fun i => by
      have hx := t.hnul i
      rw [ht] at hx
      by_cases hl : (0, i) = l
      · simp [hl] at hx
      · simpa [hl] using hx), t.orc, t.junk, t.tick, t.clk - 1⟩
    have := h t0 rfl h1 (by show k ≤ t.clk - 1; omega) h4 h3
    obtain ⟨b, s', e, hb⟩ := this
    obtain ⟨s1, e1, a1, a2, a3, a4, a5, a6⟩ := store_some (s := t0) (l := l) (v := v) hv
    rw [bind_ok e1] at e
    have e2 : s1 = t := by
      apply Mem.ext'
      · rw [a1, ht]
      · exact a6
      · exact a2
      · exact a3
      · exact a4
      · rw [a5]; show t.clk - 1 + 1 = t.clk; omega
    rw [e2] at e
    exact ⟨b, s', e, hb⟩
  obtain ⟨s1, e1, a1, a2, a3, a4, a5, a6⟩ := store_some (s := s) (l := l) (v := v) hsv
  obtain ⟨a, s2, e2, ho, hq2⟩ := hk () _ hw1 s1 G (by rw [a2]; exact hnf) (by
    rw [a1, he]
    have hdl : d l = none := (hd l).resolve_left hv
    have : (fun l' => if l' = l then some v else Heap.union c d l') = Heap.union (fun l' => if l' = l then some v else c l') d := by
      funext l'
      by_cases hl : l' = l
      · simp [hl, Heap.union]
      · simp [hl, Heap.union]
    rw [this]
    refine ex_sep_join ?_ hq
    intro l'
    by_cases hl : l' = l
    · subst hl; exact .inr hdl
    · simp only [hl, ↓reduceIte]; exact hd l')
  exact ⟨a, s2, by rw [bind_ok e1]; exact e2, ho.trans a2, hq2⟩

theorem freeRange_iff {c : Heap V} {a n : Nat} : freeRange c a n = true ↔ ∀ i, i ≤ n → c (a, i) = none := by
  simp only [freeRange, List.all_eq_true, List.mem_range, Option.isNone_iff_eq_none]
  exact ⟨fun h i hi => h i (by omega), fun h i hi => h i (by omega)⟩

theorem mallocG_run {s : Mem V} {n : Nat} {init : (Nat → Nat) → Nat → Val V} (h : s.orc s.tick ≠ 0) :
    ∃ s1, mallocG n init s = some (.ok (pick s n, s1)) ∧ s1.cells = (fun l => if l.1 = pick s n ∧ l.2 ≤ n then
        (if l.2 = 0 then some (.sz n) else some (init (s.junk s.tick) l.2)) else s.cells l) ∧ s1.orc = s.orc ∧ s1.junk = s.junk ∧ s1.tick = s.tick + 1 ∧ s1.clk = s.clk + 1 ∧
      s1.top = max s.top (pick s n + 1) := by
  simp only [mallocG, bind, StateT.bind, get, getThe, MonadStateOf.get, StateT.get, ExceptT.bind, ExceptT.mk, ExceptT.bindCont, pure, ExceptT.pure, Option.bind, h, ↓reduceIte]
  exact ⟨_, rfl, rfl, rfl, rfl, rfl, rfl, rfl⟩

theorem pick_free {s : Mem V} {n : Nat} : ∀ i, i ≤ n → s.cells (pick s n, i) = none := by
  unfold pick
  by_cases h : freeRange s.cells (s.orc s.tick) n = true
  · rw [if_pos h]; exact freeRange_iff.1 h
  · rw [if_neg h]; intro i _; exact s.htop _ (Nat.le_refl _)
theorem pick_ne {s : Mem V} {n : Nat} (h : s.orc s.tick ≠ 0) : pick s n ≠ 0 := by
  unfold pick
  split
  · exact h
  · exact Nat.ne_of_gt s.hpos

theorem Vis.mallocG (n : Nat) (init : (Nat → Nat) → Nat → Val V) : Vis (mallocG n init) := by
  intro β γ K' K c Ψ F Q hw hk s G hnf hs
  obtain ⟨d, hd, he, hq⟩ := ex_sep_split hs
  have hn : s.orc s.tick ≠ 0 := hnf trivial _
  obtain ⟨s1, e1, a1, a2, a3, a4, a5, a6⟩ := mallocG_run (s := s) (n := n) (init := init) hn
  have hfree := pick_free (s := s) (n := n)
  have hne := pick_ne (n := n) hn
  generalize pick s n = a at *
  have hca : ∀ i, i ≤ n → c (a, i) = none := fun i hi => union_none (he ▸ hfree i hi)
  have hda : ∀ i, i ≤ n → d (a, i) = none := fun i hi => by
    have := hfree i hi
    rw [he] at this
    simp only [Heap.union, Option.or_eq_none_iff] at this
    exact this.2
  generalize hj : s.junk s.tick = jk at *
  have hw1 : Wp (K' a) (fun l => if l.1 = a ∧ l.2 ≤ n then (if l.2 = 0 then some (.sz n) else some (init jk l.2)) else c l) Ψ := by
    obtain ⟨N, k, o, j, ho, h⟩ := hw
    refine ⟨N + 1, k + 1, (fun t => if t = N then a else o t), (fun t => if t = N then jk else j t), ?_, fun t ht h1 h2 h4 h3 => ?_⟩
    · intro t
      show (if t = N then a else o t) ≠ 0
      split
      · exact hne
      · exact ho t
    let t0 : Mem V := ⟨c, t.top, t.hpos, (fun l' hl' => by
      have hx := t.htop l' hl'
      rw [ht] at hx
      by_cases hl : l'.1 = a ∧ l'.2 ≤ n
      · simp only [hl, and_self, ↓reduceIte] at hx
        split at hx <;> cases hx
      · simpa only [hl, ↓reduceIte] using hx), (fun i => by
      have hx := t.hnul i
      rw [ht] at hx
      simpa [hne.symm] using hx), t.orc, t.junk, N, t.clk - 1⟩
    have := h t0 rfl rfl (by show k ≤ t.clk - 1; omega) (by
      intro i hi
      have := h4 i (by omega)
      simpa only [Nat.ne_of_lt hi, ↓reduceIte] using this) h3
    obtain ⟨b, s', e, hb⟩ := this
    have hN := h4 N (by omega)
    simp only [↓reduceIte] at hN
    have ho0 : t0.orc t0.tick = a := hN.1
    have hj0 : t0.junk t0.tick = jk := hN.2
    have hp0 : pick t0 n = a := by
      unfold pick
      rw [ho0, if_pos (freeRange_iff.2 hca)]
    obtain ⟨s1, e1, a1, a2, a3, a4, a5, a6⟩ := mallocG_run (s := t0) (n := n) (init := init) (by rw [ho0]; exact hne)
    rw [hp0] at e1 a1 a6
    rw [hj0] at a1
    rw [bind_ok e1] at e
    have e2 : s1 = t := by
      apply Mem.ext'
      · rw [a1, ht]
      · rw [a6]
        show max t.top (a + 1) = t.top
        have : a < t.top := by
          refine Nat.lt_of_not_le fun hle => ?_
          have := t.htop (a, 0) hle
          rw [ht] at this
          simp at this
        omega
      · exact a2
      · exact a3
      · rw [a4, h1]
      · rw [a5]; show t.clk - 1 + 1 = t.clk; omega
    rw [e2] at e
    exact ⟨b, s', e, hb⟩
  obtain ⟨b, s2, e2, ho, hq2⟩ := hk a _ hw1 s1 G (by rw [a2]; exact hnf) (by
    rw [a1, he]
    have : (fun l : Loc => if l.1 = a ∧ l.2 ≤ n then (if l.2 = 0 then some (Val.sz n) else some (init jk l.2)) else Heap.union c d l) =
        Heap.union (fun l => if l.1 = a ∧ l.2 ≤ n then (if l.2 = 0 then some (.sz n) else some (init jk l.2)) else c l) d := by
      funext l
      by_cases hl : l.1 = a ∧ l.2 ≤ n
      · simp only [hl, and_self, ↓reduceIte, Heap.union]
        by_cases h0 : l.2 = 0 <;> simp [h0]
      · simp only [hl, ↓reduceIte, Heap.union]
    rw [this]
    refine ex_sep_join ?_ hq
    intro l
    by_cases hl : l.1 = a ∧ l.2 ≤ n
    · refine .inr ?_
      have := hda l.2 hl.2
      rw [← hl.1] at this
      exact this
    · simp only [hl, ↓reduceIte]; exact hd l)
  exact ⟨b, s2, by rw [bind_ok e1]; exact e2, ho.trans a2, hq2⟩

theorem Vis.ldV (l : Loc) : Vis (ldV l : M V V) := by
  unfold CC.ldV
  refine Vis.bind (Vis.load l) fun x => ?_
  split
  · exact Vis.pure _
  · exact Vis.ub
theorem Vis.construct (l : Loc) (v : V) : Vis (construct l v : M V Unit) := by
  unfold CC.construct
  refine Vis.bind (Vis.load l) fun x => ?_
  split
  · exact Vis.store _ _
  · exact Vis.ub
theorem Vis.destroyV (l : Loc) : Vis (destroyV l : M V Unit) := by
  unfold CC.destroyV
  refine Vis.bind (Vis.load l) fun x => ?_
  split
  · exact Vis.store _ _
  · exact Vis.ub
theorem Vis.wr (l : Loc) (v : V) : Vis (Algo.wr l v : M V Unit) := Vis.bind (Vis.ldV l) fun _ => Vis.store _ _
theorem Vis.asg (l l' : Loc) : Vis (Algo.asg l l' : M V Unit) := Vis.bind (Vis.ldV l') fun v => Vis.wr l v
theorem Vis.cmp (comp : V → V → Bool) (l l' : Loc) : Vis (Algo.cmp comp l l') := Vis.bind (Vis.ldV l) fun _ => Vis.bind (Vis.ldV l') fun _ => Vis.pure _
theorem Vis.test (pred : V → Bool) (l : Loc) : Vis (Algo.test pred l) := Vis.bind (Vis.ldV l) fun _ => Vis.pure _

/-! ## Refinement of programs -/

/-- `m`, started with the additional memory `A`, does what `m'` does without it, and turns `A` into `B` (`φ` relates the results); in the middle of any two programs -/
def RefC {α α' : Type} (A : HProp V) (m : M V α) (m' : M V α') (φ : α' → α → Prop) (B : α' → α → HProp V) : Prop :=
  ∀ (β γ : Type) (K' : α' → M V β) (K : α → M V γ) (c : Heap V) (Ψ : β → Heap V → Prop) (F : HProp V) (Q : γ → HProp V),
    Wp (m' >>= K') c Ψ → (∀ a' a c1, φ a' a → Wp (K' a') c1 Ψ → Triple True (Ex c1 ∗ B a' a ∗ F) (K a) Q) → Triple True (Ex c ∗ A ∗ F) (m >>= K) Q

section
variable {α' : Type} {A P F : HProp V} {m : M V α} {m' : M V α'} {φ : α' → α → Prop} {B : α' → α → HProp V}

theorem RefC.use {K' : α' → M V β} {K : α → M V γ} {c : Heap V} {Ψ : β → Heap V → Prop} {Q : γ → HProp V} (h : RefC A m m' φ B) (hw : Wp (m' >>= K') c Ψ) (he : P ⊢ₛ Ex c ∗ A ∗ F)
    (hk : ∀ a' a c1, φ a' a → Wp (K' a') c1 Ψ → Triple True (Ex c1 ∗ B a' a ∗ F) (K a) Q) : Triple True P (m >>= K) Q :=
  Triple.pre he (h _ _ _ _ _ _ _ _ hw hk)

/-- an access made by both programs -/
theorem Vis.use {e : M V α} {K' : α → M V β} {K : α → M V γ} {c : Heap V} {Ψ : β → Heap V → Prop} {Q : γ → HProp V} (h : Vis e) (hw : Wp (e >>= K') c Ψ) (he : P ⊢ₛ Ex c ∗ F)
    (hk : ∀ a c1, Wp (K' a) c1 Ψ → Triple True (Ex c1 ∗ F) (K a) Q) : Triple True P (e >>= K) Q :=
  Triple.pre he (h _ _ _ _ _ _ _ _ hw hk)

theorem Wp.ret {a : α} {c : Heap V} {Ψ : α → Heap V → Prop} {P : HProp V} (hw : Wp (pure a) c Ψ) (he : P ⊢ₛ Ex c ∗ F) {Q : γ → HProp V} {m : M V γ} (hk : Ψ a c → Triple True (Ex c ∗ F) m Q) :
    Triple True P m Q := by
  refine Triple.pre he ?_
  intro s G hnf hs
  obtain ⟨d, hd, he, hq⟩ := ex_sep_split hs
  obtain ⟨o, j, t, k, b, s', e, hb⟩ := hw.start s he
  have e : some (Except.ok (a, ghost s c _ o j t k)) = some (Except.ok (b, s')) := e
  cases e
  exact hk hb s G hnf hs

/-- what is proved of the program without the additional memory holds of the other one -/
theorem RefC.lift (h : RefC A m m' φ B) {P : HProp V} {Q : α' → HProp V} (ht : Triple True P m' Q) : Triple True (P ∗ A) m (fun a => ∃ₛ a', ⌜φ a' a⌝ ∗ Q a' ∗ B a' a) := by
  intro s F hnf hs
  rw [sep_assoc] at hs
  obtain ⟨c, d, hd, he, hp, hq⟩ := hs
  have hw := Wp.of_triple (F := emp) (c := c) ht (by rw [sep_emp]; exact hp)
  simp only [sep_emp] at hw
  have := h α' α pure pure c (fun a c' => Q a c') emp (fun a => ∃ₛ a', ⌜φ a' a⌝ ∗ Q a' ∗ B a' a) (by rw [bind_pure]; exact hw) fun a' a c1 hf hw1 => ?_
  · rw [bind_pure] at this
    refine this s F hnf ?_
    rw [sep_assoc, sep_emp]
    exact ⟨c, d, hd, he, rfl, hq⟩
  · refine Wp.ret hw1 (ent_refl _) fun hQ => ?_
    apply Triple.ret
    rw [sep_emp]
    refine ent_ex_right a' (ent_pure_right hf (sep_mono ?_ (ent_refl _)))
    rintro h rfl
    exact hQ

end

end CC
