import Verif.Iter.History
/-!
# Iterators of several containers
-/
namespace CC.Iter
open CC CC.Tac
variable {V β : Type} {nf : Prop} {Z : Nat → Nat} {C G F P : HProp V} {r : Src V} {Q : β → HProp V}

theorem Triple.frame_eq {m : M V β} {p : β → Prop} (h : Triple nf C m (fun x => ⌜p x⌝ ∗ C)) : Triple nf (C ∗ G) m (fun x => ⌜p x⌝ ∗ C ∗ G) := by
  refine Triple.conseq (Triple.frame (R := G) h) (ent_refl _) fun x => ?_
  rw [sep_assoc]
  exact ent_refl _

theorem Src.Ok.frame (h : r.Ok nf Z C) : r.Ok nf Z (C ∗ G) where
  ty0 := h.ty0
  node0 := fun m F hm => h.node0 m (G ∗ F) (by rw [← sep_assoc]; exact hm)
  inj := fun m F hm => h.inj m (G ∗ F) (by rw [← sep_assoc]; exact hm)
  first := Triple.frame_eq h.first
  last := Triple.frame_eq h.last
  next := fun i hi => Triple.frame_eq (h.next i hi)
  prev := fun hb i hi => Triple.frame_eq (h.prev hb i hi)
  deref := fun i hi => Triple.frame_eq (h.deref i hi)
  adv := fun i n h1 h2 h3 h4 => Triple.frame_eq (h.adv i n h1 h2 h3 h4)
  dist := fun i j h1 h2 => Triple.frame_eq (h.dist i j h1 h2)
  less := fun hr i j h1 h2 => Triple.frame_eq (h.less hr i j h1 h2)

/-- the block an iterator points into -/
def Pay.block : Pay → Addr
  | .node a => a
  | .pos b _ => b

/-- the positions of `r` are in blocks of the fragment -/
def Src.Owned (C : HProp V) (r : Src V) : Prop := ∀ i, i ≤ r.len → ∀ h, C h → h ((r.pay i).block, 0) ≠ none

theorem Src.Owned.left (h : r.Owned C) : r.Owned (C ∗ G) := by
  rintro i hi m ⟨h₁, h₂, hd, rfl, hc, _⟩
  have := h i hi h₁ hc
  simp only [Heap.union]
  cases hx : h₁ ((r.pay i).block, 0) with
  | none => exact absurd hx this
  | some v => simp

theorem Src.Owned.right (h : r.Owned C) : r.Owned (G ∗ C) := by
  rw [sep_comm]
  exact h.left

/-- a container: its memory and the ways of going through it -/
structure Cont (V : Type) where
  mem : HProp V
  srcs : List (Src V)

structure Cont.Ok (nf : Prop) (Z : Nat → Nat) (c : Cont V) : Prop where
  ok : ∀ r ∈ c.srcs, r.Ok nf Z c.mem
  kinds : c.srcs.Pairwise (fun r r' => r.kind ≠ r'.kind)

def Cont.Owned (c : Cont V) : Prop := ∀ r ∈ c.srcs, r.Owned c.mem

/-- the memory of several containers -/
def mems : List (Cont V) → HProp V
  | [] => emp
  | c :: cs => c.mem ∗ mems cs

theorem world_one {c : Cont V} (h : c.Ok nf Z) : World nf Z c.mem c.srcs where
  ok := h.ok
  sep := by
    intro s s' r r' hs hs' hne hk
    exfalso
    obtain ⟨h1, e1⟩ := List.getElem?_eq_some_iff.1 hs
    obtain ⟨h2, e2⟩ := List.getElem?_eq_some_iff.1 hs'
    rcases Nat.lt_or_gt_of_ne hne with hlt | hlt
    · have := List.pairwise_iff_getElem.1 h.kinds s s' h1 h2 hlt
      rw [e1, e2] at this
      exact this hk
    · have := List.pairwise_iff_getElem.1 h.kinds s' s h2 h1 hlt
      rw [e1, e2] at this
      exact this hk.symm

theorem owned_ne {r r' : Src V} {i j : Nat} (h1 : r.Owned C) (h2 : r'.Owned G) (hi : i ≤ r.len) (hj : j ≤ r'.len) {m : Heap V} (hm : ((C ∗ G) ∗ F) m) : r.pay i ≠ r'.pay j := by
  obtain ⟨m1, m2, hd, rfl, ⟨h₁, h₂, hd', rfl, hc, hg⟩, _⟩ := hm
  intro he
  have a := h1 i hi h₁ hc
  have b := h2 j hj h₂ hg
  rw [he] at a
  exact (hd' _).elim a b

theorem world_cons {c : Cont V} {S : List (Src V)} (h : c.Ok nf Z) (ho : c.Owned) (hw : World nf Z C S) (hS : ∀ r ∈ S, r.Owned C) : World nf Z (c.mem ∗ C) (c.srcs ++ S) where
  ok := by
    intro r hr
    rcases List.mem_append.1 hr with hr | hr
    · exact (h.ok r hr).frame
    · rw [sep_comm]
      exact (hw.ok r hr).frame
  sep := by
    intro s s' r r' hs hs' hne hk m F hm i j hi hj
    rw [List.getElem?_append] at hs hs'
    split at hs <;> split at hs'
    · exact (world_one h).sep s s' r r' hs hs' hne hk m (C ∗ F) (by rw [← sep_assoc]; exact hm) i j hi hj
    · exact owned_ne (ho r (List.mem_of_getElem? hs)) (hS r' (List.mem_of_getElem? hs')) hi hj hm
    · exact (owned_ne (ho r' (List.mem_of_getElem? hs')) (hS r (List.mem_of_getElem? hs)) hj hi hm).symm
    · rw [sep_comm c.mem, sep_assoc] at hm
      exact hw.sep _ _ r r' hs hs' (by omega) hk m (c.mem ∗ F) hm i j hi hj

/-- several containers -/
theorem world_all {cs : List (Cont V)} (h : ∀ c ∈ cs, c.Ok nf Z ∧ c.Owned) : World nf Z (mems cs) (cs.flatMap Cont.srcs) ∧ ∀ r ∈ cs.flatMap Cont.srcs, r.Owned (mems cs) := by
  induction cs with
  | nil =>
    refine ⟨⟨by simp, ?_⟩, by simp⟩
    intro s s' r r' hs
    simp at hs
  | cons c cs ih =>
    obtain ⟨h1, h2⟩ := ih fun c hc => h c (by simp [hc])
    obtain ⟨hc, ho⟩ := h c (by simp)
    rw [List.flatMap_cons, mems]
    refine ⟨world_cons hc ho h1 h2, fun r hr => ?_⟩
    rcases List.mem_append.1 hr with hr | hr
    · exact (ho r hr).left
    · exact (h2 r hr).right

/-! ### iterators that point to nodes -/

theorem advLoop_fwd {f : Pay → M V Pay} (hf : ∀ i, i < r.len → Triple nf C (f (r.pay i)) (fun p => ⌜p = r.pay (i + 1)⌝ ∗ C)) {i n : Nat} (h : i + n ≤ r.len) :
    Triple nf C (advLoop f (r.pay i) n) (fun p => ⌜p = r.pay (i + n)⌝ ∗ C) := by
  induction n generalizing i with
  | zero => exact Triple.ret (ent_pure_right rfl (ent_refl _))
  | succ n ih =>
    unfold advLoop
    refine Triple.bind (hf i (by omega)) fun p => ?_
    refine Triple.pure_left fun hp => ?_
    subst hp
    have := ih (i := i + 1) (by omega)
    rwa [show i + 1 + n = i + (n + 1) by omega] at this

theorem advLoop_bwd {f : Pay → M V Pay} (hf : ∀ i, i < r.len → Triple nf C (f (r.pay (i + 1))) (fun p => ⌜p = r.pay i⌝ ∗ C)) {i n : Nat} (h : i ≤ r.len) (hn : n ≤ i) :
    Triple nf C (advLoop f (r.pay i) n) (fun p => ⌜p = r.pay (i - n)⌝ ∗ C) := by
  induction n generalizing i with
  | zero => exact Triple.ret (ent_pure_right rfl (ent_refl _))
  | succ n ih =>
    unfold advLoop
    obtain ⟨i, rfl⟩ : ∃ j, i = j + 1 := ⟨i - 1, by omega⟩
    refine Triple.bind (hf i (by omega)) fun p => ?_
    refine Triple.pure_left fun hp => ?_
    subst hp
    have := ih (i := i) (by omega) (by omega)
    rwa [show i + 1 - (n + 1) = i - n by omega]

theorem distLoop_fwd {f : Pay → M V Pay} (hf : ∀ i, i < r.len → Triple nf C (f (r.pay i)) (fun p => ⌜p = r.pay (i + 1)⌝ ∗ C))
    (hinj : ∀ h (F : HProp V), (C ∗ F) h → ∀ i j, i ≤ r.len → j ≤ r.len → r.pay i = r.pay j → i = j) {i j n : Nat} (hij : i ≤ j) (hj : j ≤ r.len) :
    Triple nf C (distLoop f (r.pay i) (r.pay j) n) (fun d => ⌜d = n + (j - i)⌝ ∗ C) := by
  induction hk : j - i generalizing i n with
  | zero =>
    obtain rfl : i = j := by omega
    rw [distLoop]
    simp only [ne_eq, not_true_eq_false, ↓reduceIte]
    exact Triple.ret (ent_pure_right rfl (ent_refl _))
  | succ k ih =>
    refine Triple.fact (p := r.pay i ≠ r.pay j) (fun h hh he => ?_) fun hne => ?_
    · have := hinj h emp (by rw [sep_emp]; exact hh) i j (by omega) hj he
      omega
    rw [distLoop]
    rw [if_pos hne]
    refine Triple.bind (hf i (by omega)) fun p => ?_
    refine Triple.pure_left fun hp => ?_
    subst hp
    have := ih (i := i + 1) (n := n + 1) (by omega) (by omega)
    rwa [show n + 1 + k = n + (k + 1) by omega] at this

/-- kinds whose iterators point to nodes -/
def Kind.nodal (k : Kind) : Prop := k = .fwd ∨ k = .list ∨ k = .listR ∨ k = .tree ∨ k = .treeR

theorem advP_nodal {k : Kind} {p : Pay} {n : Int} (hk : k.nodal) (h : 0 ≤ n ∨ k.bidir) :
    advP (V := V) k p n = if n > 0 then advLoop (fwdP k) p n.toNat else advLoop (bwdP k) p (-n).toNat := by
  rcases hk with rfl | rfl | rfl | rfl | rfl
  · have h0 : 0 ≤ n := by
      rcases h with h | h
      · exact h
      · exact absurd rfl h
    by_cases hn : n > 0
    · rw [if_pos hn]; rfl
    · have : n = 0 := by omega
      subst this
      rfl
  all_goals rfl

theorem distP_nodal {k : Kind} {p q : Pay} {z : Nat} (hk : k.nodal) : distP (V := V) z k p q = (do return (← distLoop (fwdP k) p q 0)) := by
  rcases hk with rfl | rfl | rfl | rfl | rfl <;> rfl

theorem ok_nodal (hk : r.kind.nodal) (hty : r.ty ≠ 0) (h0 : ∀ h (F : HProp V), (C ∗ F) h → ∀ i, i ≤ r.len → r.pay i ≠ .node 0)
    (hinj : ∀ h (F : HProp V), (C ∗ F) h → ∀ i j, i ≤ r.len → j ≤ r.len → r.pay i = r.pay j → i = j)
    (hfirst : Triple nf C r.first (fun p => ⌜p = (r.ty, r.pay 0)⌝ ∗ C)) (hlast : Triple nf C r.last (fun p => ⌜p = (r.ty, r.pay r.len)⌝ ∗ C))
    (hnext : ∀ i, i < r.len → Triple nf C (fwdP r.kind (r.pay i)) (fun p => ⌜p = r.pay (i + 1)⌝ ∗ C))
    (hprev : r.kind.bidir → ∀ i, i < r.len → Triple nf C (bwdP r.kind (r.pay (i + 1))) (fun p => ⌜p = r.pay i⌝ ∗ C))
    (hderef : ∀ i, i < r.len → Triple nf C (derefP r.kind (r.pay i)) (fun l => ⌜l = r.ref i⌝ ∗ C)) : r.Ok nf Z C where
  ty0 := hty
  node0 := h0
  inj := hinj
  first := hfirst
  last := hlast
  next := hnext
  prev := hprev
  deref := hderef
  adv := by
    intro i n hi h1 h2 h3
    rw [advP_nodal hk h3]
    by_cases hn : n > 0
    · rw [if_pos hn]
      have := advLoop_fwd (r := r) (C := C) hnext (i := i) (n := n.toNat) (by omega)
      rwa [show i + n.toNat = ((i : Int) + n).toNat by omega] at this
    · rw [if_neg hn]
      by_cases hn0 : n = 0
      · subst hn0
        exact Triple.ret (ent_pure_right (by simp) (ent_refl _))
      have hb : r.kind.bidir := h3.resolve_left (by omega)
      have := advLoop_bwd (r := r) (C := C) (hprev hb) (i := i) (n := (-n).toNat) hi (by omega)
      rwa [show i - (-n).toNat = ((i : Int) + n).toNat by omega] at this
  dist := by
    intro i j hij hj
    rw [distP_nodal hk]
    refine Triple.bind (distLoop_fwd hnext hinj hij hj) fun d => ?_
    refine Triple.pure_left fun hd => ?_
    subst hd
    exact Triple.ret (ent_pure_right (by omega) (ent_refl _))
  less := by
    intro hr
    exfalso
    rcases hk with hk | hk | hk | hk | hk <;> rcases hr with hr | hr | hr | hr <;> rw [hk] at hr <;> exact Kind.noConfusion hr

/-! ### iterators that point to array slots -/

theorem quot_nonneg {d : Int} {z : Nat} (h0 : 0 ≤ d) (hz : 0 < z) (hb : d * z < 2 ^ 63) : quot (d * z) z = d := by
  have hn : 0 ≤ d * z := Int.mul_nonneg h0 (by omega)
  unfold quot
  have e1 : d * (z : Int) % 2 ^ 64 = d * z := Int.emod_eq_of_lt hn (by omega)
  have e2 : d * (z : Int) / z = d := Int.mul_ediv_cancel d (by omega)
  simp only [e1, e2]
  have : d ≤ d * z := by
    have : d * 1 ≤ d * z := Int.mul_le_mul_of_nonneg_left (by omega) h0
    omega
  rw [if_pos (by omega)]

theorem dist_bound {i j n z : Nat} (hij : i ≤ j) (hj : j ≤ n) (hb : n * z < 2 ^ 63) : ((j : Int) - i) * z < 2 ^ 63 := by
  have h1 : (j - i) * z ≤ n * z := Nat.mul_le_mul_right _ (by omega)
  have h2 : ((j : Int) - i) * z = (((j - i) * z : Nat) : Int) := by
    rw [Int.natCast_mul, Int.ofNat_sub hij]
  rw [h2]
  have : (j - i) * z < 2 ^ 63 := Nat.lt_of_le_of_lt h1 hb
  exact_mod_cast this

theorem ok_pos {b k : Nat} (hk : r.kind = .vec ∨ r.kind = .deq) (hty : r.ty ≠ 0) (hz : 0 < Z r.ty) (hb : r.len * Z r.ty < 2 ^ 63)
    (hpay : r.pay = fun i => .pos b (k + i)) (hr : r.ref = fun i => (b, k + i))
    (hfirst : Triple nf C r.first (fun p => ⌜p = (r.ty, r.pay 0)⌝ ∗ C)) (hlast : Triple nf C r.last (fun p => ⌜p = (r.ty, r.pay r.len)⌝ ∗ C)) : r.Ok nf Z C where
  ty0 := hty
  node0 := by intro h F _ i _; rw [hpay]; simp
  inj := by
    intro h F _ i j _ _ he
    rw [hpay] at he
    simp only [Pay.pos.injEq, true_and] at he
    omega
  first := hfirst
  last := hlast
  next := by
    intro i hi
    have : fwdP r.kind (r.pay i) = (pure (r.pay (i + 1)) : M V Pay) := by rw [hpay]; rcases hk with hk | hk <;> rw [hk] <;> rfl
    rw [this]
    exact Triple.ret (ent_pure_right rfl (ent_refl _))
  prev := by
    intro _ i hi
    have : bwdP r.kind (r.pay (i + 1)) = (pure (r.pay i) : M V Pay) := by
      rw [hpay]
      rcases hk with hk | hk <;> rw [hk] <;> show (if k + (i + 1) = 0 then ub else pure (Pay.pos b (k + (i + 1) - 1))) = _ <;> rw [if_neg (by omega)] <;> rfl
    rw [this]
    exact Triple.ret (ent_pure_right rfl (ent_refl _))
  deref := by
    intro i hi
    have : derefP r.kind (r.pay i) = (pure (r.ref i) : M V Loc) := by rw [hpay, hr]; rcases hk with hk | hk <;> rw [hk] <;> rfl
    rw [this]
    exact Triple.ret (ent_pure_right rfl (ent_refl _))
  adv := by
    intro i n hi h1 h2 _
    have : advP r.kind (r.pay i) n = (pure (r.pay ((i : Int) + n).toNat) : M V Pay) := by
      rw [hpay]
      rcases hk with hk | hk <;> rw [hk] <;> refine (if_neg (by omega)).trans ?_ <;> congr 2 <;> omega
    rw [this]
    exact Triple.ret (ent_pure_right rfl (ent_refl _))
  dist := by
    intro i j hij hj
    have : distP (Z r.ty) r.kind (r.pay i) (r.pay j) = (pure ((j : Int) - i) : M V Int) := by
      rw [hpay]
      have e : quot ((((k + j : Nat) : Int) - ((k + i : Nat) : Int)) * (Z r.ty)) (Z r.ty) = (j : Int) - i := by
        rw [show ((k + j : Nat) : Int) - ((k + i : Nat) : Int) = (j : Int) - i by omega]
        exact quot_nonneg (by omega) hz (dist_bound hij hj hb)
      rcases hk with hk | hk <;> rw [hk] <;> refine (if_neg (by omega)).trans ?_ <;> rw [e]
    rw [this]
    exact Triple.ret (ent_pure_right rfl (ent_refl _))
  less := by
    intro _ i j hi hj
    have : lessP r.kind (r.pay i) (r.pay j) = (pure (decide (i < j)) : M V Bool) := by
      rw [hpay]
      have e : decide (k + i < k + j) = decide (i < j) := by
        rw [decide_eq_decide]
        omega
      rcases hk with hk | hk <;> rw [hk] <;> refine (if_neg (by omega)).trans ?_ <;> rw [e]
    rw [this]
    exact Triple.ret (ent_pure_right rfl (ent_refl _))

theorem ok_posR {b k : Nat} (hk : r.kind = .vecR ∨ r.kind = .deqR) (hk1 : 1 ≤ k) (hty : r.ty ≠ 0) (hz : 0 < Z r.ty) (hb : r.len * Z r.ty < 2 ^ 63)
    (hpay : r.pay = fun i => .pos b (k + r.len - i)) (hr : r.ref = fun i => (b, k + (r.len - 1 - i)))
    (hfirst : Triple nf C r.first (fun p => ⌜p = (r.ty, r.pay 0)⌝ ∗ C)) (hlast : Triple nf C r.last (fun p => ⌜p = (r.ty, r.pay r.len)⌝ ∗ C)) : r.Ok nf Z C where
  ty0 := hty
  node0 := by intro h F _ i _; rw [hpay]; simp
  inj := by
    intro h F _ i j _ _ he
    rw [hpay] at he
    simp only [Pay.pos.injEq, true_and] at he
    omega
  first := hfirst
  last := hlast
  next := by
    intro i hi
    have : fwdP r.kind (r.pay i) = (pure (r.pay (i + 1)) : M V Pay) := by
      rw [hpay]
      rcases hk with hk | hk <;> rw [hk] <;> refine (if_neg (by omega)).trans ?_ <;> congr 2
    rw [this]
    exact Triple.ret (ent_pure_right rfl (ent_refl _))
  prev := by
    intro _ i hi
    have : bwdP r.kind (r.pay (i + 1)) = (pure (r.pay i) : M V Pay) := by
      rw [hpay]
      have e : k + r.len - (i + 1) + 1 = k + r.len - i := by omega
      rcases hk with hk | hk <;> rw [hk] <;> show pure (Pay.pos b (k + r.len - (i + 1) + 1)) = _ <;> rw [e]
    rw [this]
    exact Triple.ret (ent_pure_right rfl (ent_refl _))
  deref := by
    intro i hi
    have : derefP r.kind (r.pay i) = (pure (r.ref i) : M V Loc) := by
      rw [hpay, hr]
      rcases hk with hk | hk <;> rw [hk] <;> refine (if_neg (by omega)).trans ?_ <;> congr 2 <;> omega
    rw [this]
    exact Triple.ret (ent_pure_right rfl (ent_refl _))
  adv := by
    intro i n hi h1 h2 _
    have : advP r.kind (r.pay i) n = (pure (r.pay ((i : Int) + n).toNat) : M V Pay) := by
      rw [hpay]
      rcases hk with hk | hk <;> rw [hk] <;> refine (if_neg (by omega)).trans ?_ <;> congr 2 <;> omega
    rw [this]
    exact Triple.ret (ent_pure_right rfl (ent_refl _))
  dist := by
    intro i j hij hj
    have : distP (Z r.ty) r.kind (r.pay i) (r.pay j) = (pure ((j : Int) - i) : M V Int) := by
      rw [hpay]
      have e : quot ((((k + r.len - i : Nat) : Int) - ((k + r.len - j : Nat) : Int)) * (Z r.ty)) (Z r.ty) = (j : Int) - i := by
        rw [show ((k + r.len - i : Nat) : Int) - ((k + r.len - j : Nat) : Int) = (j : Int) - i by omega]
        exact quot_nonneg (by omega) hz (dist_bound hij hj hb)
      rcases hk with hk | hk <;> rw [hk] <;> refine (if_neg (by omega)).trans ?_ <;> rw [e]
    rw [this]
    exact Triple.ret (ent_pure_right rfl (ent_refl _))
  less := by
    intro _ i j hi hj
    have : lessP r.kind (r.pay i) (r.pay j) = (pure (decide (i < j)) : M V Bool) := by
      rw [hpay]
      have e : decide (k + r.len - i > k + r.len - j) = decide (i < j) := by
        rw [decide_eq_decide]
        omega
      rcases hk with hk | hk <;> rw [hk] <;> refine (if_neg (by omega)).trans ?_ <;> rw [e]
    rw [this]
    exact Triple.ret (ent_pure_right rfl (ent_refl _))

end CC.Iter
