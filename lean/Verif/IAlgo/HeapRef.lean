import Verif.IAlgo.NonModRef
import Verif.IAlgo.ModifyRef
import Verif.IAlgo.Heap
import Verif.Algo.Heap
/-!
# `algorithm/c_heap.c` on iterator objects does what the programs on positions do
-/
namespace CC.IAlgo
open CC CC.Tac CC.Iter CC.Algo
variable {V α β γ : Type} {Z : Nat → Nat} {S A P F R : HProp V} {r r2 r3 : Src V} {x y i j k n a b f l d q first last dFirst : Nat} {o o2 : Out} {B : Nat → Nat → HProp V} {Q : β → HProp V}

/-! ## local iterators that may be NULL -/

/-- a local variable with value `q`: NULL, or an iterator of `r` somewhere -/
def Tmp (r : Src V) (q : Nat) : HProp V := fun h => (q = 0 ∧ emp h) ∨ ∃ p, isIt r.kind r.ty q p h

theorem tmp_null : (P : HProp V) ⊢ₛ Tmp r 0 ∗ P := by
  intro h hh
  rw [← emp_sep (P := P)] at hh
  exact sep_mono (fun h hh => .inl ⟨rfl, hh⟩) (ent_refl _) h hh

theorem it_tmp : It r q k ⊢ₛ Tmp r q := fun _ hh => .inr ⟨_, hh⟩

theorem toTmp (he : P ⊢ₛ It r q k ∗ R) {m : M V β} (h : Triple True (Tmp r q ∗ R) m Q) : Triple True P m Q :=
  Triple.pre (ent_trans he (sep_mono it_tmp (ent_refl _))) h

theorem newTmp {m : M V β} (h : Triple True (Tmp r 0 ∗ P) m Q) : Triple True P m Q := Triple.pre tmp_null h

theorem tmp_cases (he : P ⊢ₛ Tmp r q ∗ R) {m : M V β} (h0 : q = 0 → Triple True R m Q) (h1 : ∀ p, Triple True (isIt r.kind r.ty q p ∗ R) m Q) : Triple True P m Q := by
  refine Triple.pre he ?_
  intro s G hnf hs
  rw [sep_assoc] at hs
  obtain ⟨c1, c2, hd, hu, ht, hr⟩ := hs
  rcases ht with ⟨h, he⟩ | ⟨p, hp⟩
  · refine h0 h s G hnf ?_
    rw [hu, show Heap.union c1 c2 = c2 by rw [show c1 = _ from he]; funext l; simp [Heap.union, Heap.empty]]
    exact hr
  · refine h1 p s G hnf ?_
    rw [sep_assoc]
    exact ⟨c1, c2, hd, hu, hp, hr⟩

theorem free_tmp (he : P ⊢ₛ Tmp r q ∗ R) {K : Unit → M V β} (hk : Triple True R (K ()) Q) : Triple True P (free q >>= K) Q := by
  refine tmp_cases he ?_ fun p => ?_
  · rintro rfl
    exact Triple.free_null hk
  · rw [isIt_arr]
    exact Triple.free_spec rfl hk

/-- assignment to an iterator anywhere -/
theorem set_any {p : Pay} (hw : At R r x i) {K : Nat → M V β} (hk : Triple True (It r q i ∗ R) (K q) Q) : Triple True (isIt r.kind r.ty q p ∗ R) (Out.set (.val q) x >>= K) Q := by
  refine Triple.fact (p := q ≠ 0) (fun h hh => isIt_ne hh) fun hq => ?_
  unfold Out.set
  simp only [hq, ↓reduceIte, bind_assoc, pure_bind]
  have h2 : At (isIt r.kind r.ty q p ∗ R) r x i := hw.mono (R := isIt r.kind r.ty q p) (by cancel)
  refine h2.with fun _ h2 => ?_
  refine cAssign_cps h2 ?_
  rw [if_pos rfl]
  exact hk

theorem set_tmp (he : P ⊢ₛ Tmp r q ∗ R) (h1 : At R r x i) {K : Nat → M V β} (hk : ∀ q', q' ≠ 0 → Triple True (It r q' i ∗ R) (K q') Q) : Triple True P (Out.set (.val q) x >>= K) Q := by
  refine tmp_cases he ?_ fun p => ?_
  · rintro rfl
    exact set_loc0 h1 hk
  · refine Triple.fact (p := q ≠ 0) (fun h hh => isIt_ne hh) fun hq => ?_
    exact set_any h1 (hk q hq)

theorem copyMove_tmp {k : Nat} {n : Int} (he : P ⊢ₛ Tmp r q ∗ R) (h1 : At R r x i) (hr : r.Ok True Z S) (hS : R ⊢ₛ S ∗ F) (hkn : (k : Int) = i + n) (hk' : k ≤ r.len) (hi : i ≤ r.len)
    (h2 : 0 ≤ n ∨ r.kind.bidir) {K : Nat → M V β} (hk : ∀ q', q' ≠ 0 → Triple True (It r q' k ∗ S ∗ F) (K q') Q) : Triple True P (copyMove q x n >>= K) Q := by
  unfold copyMove
  simp only [bind_assoc, pure_bind]
  refine set_tmp he h1 fun q' hq => ?_
  exact adv_at (ent_refl _) hr hS hkn hk' hi h2 (hk q' hq)

/-! ## positions beyond the end

`__percolate_down` computes iterators for children that do not exist; they are not dereferenced. -/

/-- iterators may be advanced beyond the end -/
def _root_.CC.Iter.Src.Far (S : HProp V) (r : Src V) : Prop :=
  ∀ (i n : Nat), i ≤ r.len → Triple True S (advP r.kind (r.pay i) (n : Int)) (fun p => ⌜p = r.pay (i + n)⌝ ∗ S)

theorem copyMove_far {n : Nat} (he : P ⊢ₛ Tmp r q ∗ R) (h1 : At R r x i) (hr : r.Far S) (hS : R ⊢ₛ S ∗ F) (hi : i ≤ r.len)
    {K : Nat → M V β} (hk : ∀ q', q' ≠ 0 → Triple True (It r q' (i + n) ∗ S ∗ F) (K q') Q) : Triple True P (copyMove q x (n : Int) >>= K) Q := by
  unfold copyMove
  simp only [bind_assoc, pure_bind]
  refine set_tmp he h1 fun q' hq => ?_
  refine Triple.pre (sep_mono (ent_refl _) hS) ?_
  unfold cAdvance advance
  simp only [bind_assoc]
  refine opsOf_cps ?_
  refine isIter_cps ?_
  simp only [decide_true, ↓reduceIte, bind_assoc, pure_bind]
  exact move_cps (f := fun p => advP r.kind p (n : Int)) (K := fun _ => K q') (hr i n hi) (hk q' hq)

/-! ## accesses are in range -/

theorem slots_ldV {s s' : Mem V} {v : V} (h : ldV (r.slots a) s = some (.ok (v, s'))) : a < r.len := by
  refine Decidable.byContradiction fun hn => ?_
  have := ldV_inv h
  simp only [Src.slots, hn, ↓reduceIte] at this
  rw [s.hnul] at this
  cases this

theorem slots_wr {s s' : Mem V} {v : V} (h : wr (r.slots a) v s = some (.ok ((), s'))) : a < r.len := by
  unfold wr at h
  obtain ⟨_, _, e, _⟩ := bind_inv h
  exact slots_ldV e

theorem slots_lt (h : a < r.len) : r.slots a = r.ref a := by simp only [Src.slots, h, ↓reduceIte]

theorem room {c : Heap V} {Ψ : α → Heap V → Prop} {m' : M V α} {p : Prop} (hw : Wp m' c Ψ) (he : P ⊢ₛ Ex c ∗ R) (hp : ∀ s b s', m' s = some (.ok (b, s')) → p) {m : M V β}
    (hk : p → Triple True P m Q) : Triple True P m Q := by
  intro s G hnf hs
  have hs' : ((Ex c ∗ R) ∗ G) s.cells := sep_mono he (ent_refl _) _ hs
  obtain ⟨d, hd, he, hq⟩ := ex_sep_split hs'
  obtain ⟨_, _, _, _, b, s', e, _⟩ := hw.start s he
  exact hk (hp _ _ _ e) s G hnf hs

theorem room_ldV {c : Heap V} {Ψ : α → Heap V → Prop} {K' : V → M V α} (hw : Wp (ldV (r.slots a) >>= K') c Ψ) (he : P ⊢ₛ Ex c ∗ R) {m : M V β}
    (hk : a < r.len → Wp (ldV (r.ref a) >>= K') c Ψ → Triple True P m Q) : Triple True P m Q := by
  refine room (p := a < r.len) hw he (fun s b s' e => ?_) fun h => hk h (by rw [slots_lt h] at hw; exact hw)
  obtain ⟨_, _, e, _⟩ := bind_inv e
  exact slots_ldV e

theorem room_test {c : Heap V} {Ψ : α → Heap V → Prop} {K' : Bool → M V α} {pred : V → Bool} (hw : Wp (test pred (r.slots a) >>= K') c Ψ) (he : P ⊢ₛ Ex c ∗ R) {m : M V β}
    (hk : a < r.len → Wp (test pred (r.ref a) >>= K') c Ψ → Triple True P m Q) : Triple True P m Q := by
  refine room (p := a < r.len) hw he (fun s b s' e => ?_) fun h => hk h (by rw [slots_lt h] at hw; exact hw)
  obtain ⟨_, _, e, _⟩ := bind_inv e
  unfold test at e
  obtain ⟨_, _, e, _⟩ := bind_inv e
  exact slots_ldV e

theorem room_cmp {c : Heap V} {Ψ : α → Heap V → Prop} {K' : Bool → M V α} {comp : V → V → Bool} (hw : Wp (cmp comp (r.slots a) (r2.slots b) >>= K') c Ψ) (he : P ⊢ₛ Ex c ∗ R) {m : M V β}
    (hk : a < r.len → b < r2.len → Wp (cmp comp (r.ref a) (r2.ref b) >>= K') c Ψ → Triple True P m Q) : Triple True P m Q := by
  refine room (p := a < r.len ∧ b < r2.len) hw he (fun s b s' e => ?_) fun h => hk h.1 h.2 (by rw [slots_lt h.1, slots_lt h.2] at hw; exact hw)
  obtain ⟨_, _, e, _⟩ := bind_inv e
  unfold cmp at e
  obtain ⟨_, _, e1, e⟩ := bind_inv e
  obtain ⟨_, _, e2, _⟩ := bind_inv e
  exact ⟨slots_ldV e1, slots_ldV e2⟩

theorem room_asg2 {c : Heap V} {Ψ : α → Heap V → Prop} {K' : Unit → M V α} (hw : Wp (asg (r.slots a) (r2.slots b) >>= K') c Ψ) (he : P ⊢ₛ Ex c ∗ R) {m : M V β}
    (hk : a < r.len → b < r2.len → Wp (asg (r.ref a) (r2.ref b) >>= K') c Ψ → Triple True P m Q) : Triple True P m Q := by
  refine room (p := a < r.len ∧ b < r2.len) hw he (fun s b s' e => ?_) fun h => hk h.1 h.2 (by rw [slots_lt h.1, slots_lt h.2] at hw; exact hw)
  obtain ⟨_, _, e, _⟩ := bind_inv e
  unfold asg at e
  obtain ⟨_, _, e1, e⟩ := bind_inv e
  exact ⟨slots_wr e, slots_ldV e1⟩

theorem room_swp {c : Heap V} {Ψ : α → Heap V → Prop} {K' : Unit → M V α} (hw : Wp (swp (r.slots a) (r2.slots b) >>= K') c Ψ) (he : P ⊢ₛ Ex c ∗ R) {m : M V β}
    (hk : a < r.len → b < r2.len → Wp (swp (r.ref a) (r2.ref b) >>= K') c Ψ → Triple True P m Q) : Triple True P m Q := by
  refine room (p := a < r.len ∧ b < r2.len) hw he (fun s b s' e => ?_) fun h => hk h.1 h.2 (by rw [slots_lt h.1, slots_lt h.2] at hw; exact hw)
  obtain ⟨_, _, e, _⟩ := bind_inv e
  unfold swp at e
  obtain ⟨_, _, e1, e⟩ := bind_inv e
  obtain ⟨_, _, e2, e⟩ := bind_inv e
  exact ⟨slots_ldV e1, slots_wr e⟩

/-! ## the exact category of a result variable -/

/-- the check of the exact category of `*until` succeeds -/
def OutEx (r : Src V) (o : Out) (A : HProp V) : Prop :=
  ∀ {c : Nat}, r.kind.cate = c → ∀ {P R : HProp V}, (P ⊢ₛ A ∗ R) → ∀ {γ : Type} {K : Unit → M V γ} {Q : γ → HProp V}, Triple True P (K ()) Q → Triple True P (o.exactly c >>= K) Q

theorem OutEx.null {k : Nat} : OutEx r (.var (0, k)) A := by
  intro c _ P R _ γ K Q hk
  unfold Out.exactly
  simp only [↓reduceIte, pure_bind]
  exact hk
theorem OutEx.loc0 : OutEx r (.val 0) A := by
  intro c _ P R _ γ K Q hk
  unfold Out.exactly
  simp only [↓reduceIte, pure_bind]
  exact hk
theorem OutEx.fresh {l : Loc} : OutEx r (.var l) (pts l (.num 0) ∗ A) := by
  intro c _ P R he γ K Q hk
  refine Triple.fact (p := l.1 ≠ 0) (fun h hh => pts_ne_zero (R := A ∗ R) ((ent_trans he (by cancel)) h hh)) fun hl => ?_
  unfold Out.exactly
  simp only [hl, ↓reduceIte, bind_assoc]
  refine ldN_reads (.of_ent (R := A ∗ R) (ent_trans he (by cancel))) ?_
  simp only [↓reduceIte, pure_bind]
  exact hk
theorem OutEx.old {l : Loc} : OutEx r (.var l) (pts l (.num q) ∗ It r q k ∗ A) := by
  intro c hc P R he γ K Q hk
  refine Triple.fact (p := l.1 ≠ 0) (fun h hh => pts_ne_zero (R := It r q k ∗ A ∗ R) ((ent_trans he (by cancel)) h hh)) fun hl => ?_
  unfold Out.exactly
  simp only [hl, ↓reduceIte, bind_assoc]
  refine ldN_reads (.of_ent (R := It r q k ∗ A ∗ R) (ent_trans he (by cancel))) ?_
  have hA : At P r q k := ⟨_, ent_trans he (show _ ⊢ₛ It r q k ∗ pts l (.num q) ∗ A ∗ R by cancel)⟩
  refine hA.with fun hq _ => ?_
  simp only [hq, ↓reduceIte]
  exact exactly_at hA hc hk

/-! ## sifting down -/

theorem optCmp {p : Prop} [Decidable p] {c : Heap V} {Ψ : α → Heap V → Prop} {comp : V → V → Bool} {K' : Bool → M V α} (h1 : At P r x a) (h2 : At P r y b) (hr : r.Ok True Z S)
    (hw : Wp ((if p then cmp comp (r.slots a) (r.slots b) else pure false) >>= K') c Ψ) (hS : P ⊢ₛ S ∗ Ex c ∗ R) (hb : S ∗ Ex c ∗ R ⊢ₛ P)
    {K : Bool → M V β} (hk : ∀ bb c1, (bb = true → p ∧ a < r.len ∧ b < r.len) → Wp (K' bb) c1 Ψ → Triple True (S ∗ Ex c1 ∗ R) (K bb) Q) :
    Triple True P ((if p then cmpAt comp x y else pure false) >>= K) Q := by
  by_cases hp : p
  · simp only [hp, ↓reduceIte] at hw ⊢
    refine room_cmp hw (R := S ∗ R) (ent_trans hS (by cancel)) fun ha hb' hw => ?_
    exact cmpAt_at' h1 h2 hr hr hw hS hb ha hb' fun bb c1 hw => hk bb c1 (fun _ => ⟨hp, ha, hb'⟩) hw
  · simp only [hp, ↓reduceIte, pure_bind] at hw ⊢
    exact Triple.pre hS (hk false c (fun h => by cases h) hw)

theorem moveIf {n k : Nat} {bb : Bool} (he : P ⊢ₛ It r q (i + k) ∗ R) (h1 : At R r x i) (hr : r.Far S) (hS : R ⊢ₛ S ∗ F) (hi : i ≤ r.len)
    {K : Nat → M V β} (hk : ∀ q', Triple True (It r q' (i + if bb then n else k) ∗ S ∗ F) (K q') Q) :
    Triple True P ((if bb then copyMove q x (n : Int) else pure q) >>= K) Q := by
  cases bb
  · simp only [Bool.false_eq_true, ↓reduceIte, pure_bind] at hk ⊢
    exact Triple.pre (ent_trans he (sep_mono (ent_refl _) hS)) (hk q)
  · simp only [↓reduceIte] at hk ⊢
    exact copyMove_far (ent_trans he (sep_mono it_tmp (ent_refl _))) h1 hr hS hi fun q' _ => hk q'

theorem percolateLoop_ref (hr : r.Ok True Z S) (hfar : r.Far S) (hn : r.Real S) (hm : r.kind.type < 7) {comp : V → V → Bool} {len hole h s l rr : Nat} (hi : i ≤ r.len) :
    RefC (It r f i ∗ Tmp r h ∗ Tmp r s ∗ Tmp r l ∗ Tmp r rr ∗ S) (percolateLoop f len comp hole h s l rr) (Algo.percolate r.slots i len hole comp)
      (fun _ _ => True) (fun _ q => It r f i ∗ Tmp r q.1 ∗ Tmp r q.2.1 ∗ Tmp r q.2.2.1 ∗ Tmp r q.2.2.2 ∗ S) := by
  induction hN : len - hole using Nat.strongRecOn generalizing hole h s l rr with
  | _ N ih =>
    intro β γ K' K c Ψ F Q hw hk
    rw [Algo.percolate] at hw
    rw [percolateLoop]
    simp only [bind_assoc] at hw ⊢
    refine copyMove_far (by cancel) (by at_it) hfar (by cancel) hi fun h _ => ?_
    refine copyMove_far (by cancel) (by at_it) hfar (by cancel) hi fun s _ => ?_
    refine copyMove_far (by cancel) (by at_it) hfar (by cancel) hi fun l _ => ?_
    refine optCmp (by at_it) (by at_it) hr hw (by cancel) (by cancel) fun b1 c1 hb1 hw => ?_
    refine moveIf (by cancel) (by at_it) hfar (by cancel) hi fun s => ?_
    refine copyMove_far (by cancel) (by at_it) hfar (by cancel) hi fun rr _ => ?_
    refine optCmp (by at_it) (by at_it) hr hw (by cancel) (by cancel) fun b2 c1 hb2 hw => ?_
    refine moveIf (by cancel) (by at_it) hfar (by cancel) hi fun s => ?_
    generalize hsw : (if b2 = true then 2 * (hole + 1) else if b1 = true then 2 * hole + 1 else hole) = sw at hw ⊢
    by_cases e : sw = hole
    · simp only [e, ne_eq, not_true_eq_false, ↓reduceIte, pure_bind] at hw ⊢
      refine toTmp (q := rr) (by cancel) ?_
      refine toTmp (q := l) (by cancel) ?_
      refine toTmp (q := s) (by cancel) ?_
      refine toTmp (q := h) (by cancel) ?_
      refine Triple.pre ?_ (hk _ _ _ trivial hw)
      cancel
    · have hsl : hole < sw ∧ sw < len := by
        cases b2
        · cases b1
          · simp only [Bool.false_eq_true, ↓reduceIte] at hsw
            omega
          · have := (hb1 rfl).1
            simp only [Bool.false_eq_true, ↓reduceIte] at hsw
            omega
        · have := (hb2 rfl).1
          simp only [↓reduceIte] at hsw
          omega
      simp only [e, ne_eq, not_false_eq_true, ↓reduceIte, bind_assoc] at hw ⊢
      refine room_swp hw (by cancel) fun h1 h2 hw => ?_
      istep
      intro c1 hw
      refine toTmp (q := rr) (by cancel) ?_
      refine toTmp (q := l) (by cancel) ?_
      refine toTmp (q := s) (by cancel) ?_
      refine toTmp (q := h) (by cancel) ?_
      exact (ih (len - sw) (by omega) (hole := sw) rfl).use hw (by cancel) hk

theorem percolate_ref (hr : r.Ok True Z S) (hfar : r.Far S) (hn : r.Real S) (hm : r.kind.type < 7) {comp : V → V → Bool} {len hole : Nat} (hi : i ≤ r.len) :
    RefC (It r first i ∗ S) (IAlgo.percolate first len hole comp) (Algo.percolate r.slots i len hole comp) (fun _ _ => True) (fun _ _ => It r first i ∗ S) := by
  intro β γ K' K c Ψ F Q hw hk
  unfold IAlgo.percolate
  simp only [bind_assoc]
  istep
  intro f _
  refine newTmp (r := r) ?_
  refine newTmp (r := r) ?_
  refine newTmp (r := r) ?_
  refine newTmp (r := r) ?_
  refine (percolateLoop_ref hr hfar hn hm (f := f) hi).use hw (by cancel) fun _ q c1 _ hw => ?_
  refine free_tmp (q := q.1) (by cancel) ?_
  refine free_tmp (q := q.2.1) (by cancel) ?_
  refine free_tmp (q := q.2.2.1) (by cancel) ?_
  refine free_tmp (q := q.2.2.2) (by cancel) ?_
  istep
  refine Triple.pre ?_ (hk () () _ trivial hw)
  cancel

theorem heapifyLoop_ref (hr : r.Ok True Z S) (hfar : r.Far S) (hn : r.Real S) (hm : r.kind.type < 7) {comp : V → V → Bool} {len n : Nat} (hi : i ≤ r.len) :
    RefC (It r f i ∗ S) (heapifyLoop f len comp n) (Algo.heapifyLoop r.slots i len comp n) (fun _ _ => True) (fun _ _ => It r f i ∗ S) := by
  induction n with
  | zero =>
    intro β γ K' K c Ψ F Q hw hk
    simp only [Algo.heapifyLoop, heapifyLoop, pure_bind] at hw ⊢
    exact hk () () c trivial hw
  | succ N ih =>
    intro β γ K' K c Ψ F Q hw hk
    simp only [Algo.heapifyLoop, heapifyLoop, bind_assoc] at hw ⊢
    exact (percolate_ref hr hfar hn hm hi).use hw (by cancel) fun _ _ c1 _ hw => ih.use hw (by cancel) hk

/-! ## the operations -/

section
variable (hr : r.Ok True Z S) (hij : i ≤ j) (hj : j ≤ r.len) (h1 : At A r first i) (h2 : At A r last j)
include hr hij hj h1 h2

theorem heapify_ref (hfar : r.Far S) (hn : r.Real S) (hm : r.kind.type < 7) {comp : V → V → Bool} :
    RefC (A ∗ S) (IAlgo.heapify Z first last comp) (Algo.heapify r.slots i j comp) (fun _ _ => True) (fun _ _ => A ∗ S) := by
  intro β γ K' K c Ψ F Q hw hk
  unfold Algo.heapify at hw
  unfold IAlgo.heapify
  simp only [bind_assoc]
  isteps
  rw [show ((j : Int) - i).toNat = j - i by omega]
  refine (heapifyLoop_ref hr hfar hn hm (by omega)).use hw (by cancel) fun _ _ c1 _ hw => ?_
  isteps
  refine Triple.pre ?_ (hk () () _ trivial hw)
  cancel

theorem makeHeap_ref (hfar : r.Far S) (hn : r.Real S) (hm : r.kind.type < 7) (hc : r.kind.cate = 4) {comp : V → V → Bool} :
    RefC (A ∗ S) (IAlgo.makeHeap Z first last comp) (Algo.makeHeap r.slots i j comp) (fun _ _ => True) (fun _ _ => A ∗ S) := by
  intro β γ K' K c Ψ F Q hw hk
  inz first hf0
  inz last hl0
  unfold Algo.makeHeap at hw
  unfold IAlgo.makeHeap
  simp only [hf0, hl0, or_self, ↓reduceIte, bind_assoc]
  isteps
  by_cases e : j - i < 2
  · have e' : (j : Int) - i < 2 := by omega
    simp only [e, e', ↓reduceIte, pure_bind] at hw ⊢
    refine Triple.pre ?_ (hk () () _ trivial hw)
    cancel
  · have e' : ¬ (j : Int) - i < 2 := by omega
    simp only [e, e', ↓reduceIte, bind_assoc] at hw ⊢
    istep
    intro f _
    istep
    intro l _
    refine (heapify_ref (A := It r f i ∗ It r l j) hr hij hj (by at_it) (by at_it) hfar hn hm).use hw (by cancel) fun _ _ c1 _ hw => ?_
    isteps
    refine Triple.pre ?_ (hk () () _ trivial hw)
    cancel
end

theorem isHeapLoop_ref (hr : r.Ok True Z S) {comp : V → V → Bool} {dist parent p l rr : Nat} (hi : i + dist ≤ r.len) :
    RefC (It r f i ∗ Tmp r p ∗ Tmp r l ∗ Tmp r rr ∗ S) (isHeapLoop f dist comp parent p l rr) (Algo.isHeapLoop r.ref i dist parent comp)
      (fun p q => q.1 = p.1 ∧ (p.1 = true → p.2 = i + dist) ∧ (p.1 = false → p.2 < i + dist))
      (fun p q => It r f i ∗ (if p.1 then Tmp r q.2.1 else It r q.2.1 p.2) ∗ Tmp r q.2.2.1 ∗ Tmp r q.2.2.2 ∗ S) := by
  induction hN : dist - parent generalizing parent p l rr with
  | zero =>
    intro β γ K' K c Ψ F Q hw hk
    rw [Algo.isHeapLoop] at hw
    rw [isHeapLoop]
    have e : ¬ 2 * parent + 1 < dist := by omega
    simp only [e, ↓reduceIte, pure_bind] at hw ⊢
    refine Triple.pre ?_ (hk _ _ _ ⟨rfl, fun _ => rfl, fun h => by cases h⟩ hw)
    simp only [↓reduceIte]
    cancel
  | succ N ih =>
    intro β γ K' K c Ψ F Q hw hk
    rw [Algo.isHeapLoop] at hw
    rw [isHeapLoop]
    by_cases e : 2 * parent + 1 < dist
    · simp only [e, ↓reduceIte, bind_assoc] at hw ⊢
      refine copyMove_tmp (k := i + parent) (q := p) (by cancel) (by at_it) hr (by cancel) (by omega) (by omega) (by omega) (.inl (by omega)) fun p _ => ?_
      refine copyMove_tmp (k := i + (2 * parent + 1)) (q := l) (by cancel) (by at_it) hr (by cancel) (by omega) (by omega) (by omega) (.inl (by omega)) fun l _ => ?_
      istep
      intro b c1 hw
      cases b
      · simp only [Bool.false_eq_true, ↓reduceIte, bind_assoc] at hw ⊢
        refine copyMove_tmp (k := i + 2 * (parent + 1)) (q := rr) (by cancel) (by at_it) hr (by cancel) (by omega) (by omega) (by omega) (.inl (by omega)) fun rr _ => ?_
        have key : ∀ bb c1, Wp ((if bb = true then pure (false, i + parent) else Algo.isHeapLoop r.ref i dist (parent + 1) comp) >>= K') c1 Ψ →
            Triple True (S ∗ Ex c1 ∗ It r rr (i + 2 * (parent + 1)) ∗ It r l (i + (2 * parent + 1)) ∗ It r p (i + parent) ∗ It r f i ∗ F)
              ((if bb = true then pure (false, p, l, rr) else isHeapLoop f dist comp (parent + 1) p l rr) >>= K) Q := by
          intro bb c1 hw
          cases bb
          · simp only [Bool.false_eq_true, ↓reduceIte] at hw ⊢
            refine toTmp (q := rr) (by cancel) ?_
            refine toTmp (q := l) (by cancel) ?_
            refine toTmp (q := p) (by cancel) ?_
            exact (ih (parent := parent + 1) (by omega)).use hw (by cancel) hk
          · simp only [↓reduceIte, pure_bind] at hw ⊢
            refine toTmp (q := rr) (by cancel) ?_
            refine toTmp (q := l) (by cancel) ?_
            refine Triple.pre ?_ (hk _ _ _ (by exact ⟨rfl, fun h => (by cases h), fun _ => (by dsimp only; omega)⟩) hw)
            simp only [Bool.false_eq_true, ↓reduceIte]
            cancel
        by_cases e2 : 2 * (parent + 1) < dist
        · simp only [e2, ↓reduceIte] at hw ⊢
          istep
          intro b c1 hw
          refine Triple.pre ?_ (key b c1 hw)
          cancel
        · simp only [e2, ↓reduceIte, pure_bind] at hw ⊢
          refine Triple.pre ?_ (key false c1 hw)
          cancel
      · simp only [↓reduceIte, pure_bind] at hw ⊢
        refine toTmp (q := l) (by cancel) ?_
        refine Triple.pre ?_ (hk _ _ _ (by exact ⟨rfl, fun h => (by cases h), fun _ => (by dsimp only; omega)⟩) hw)
        simp only [Bool.false_eq_true, ↓reduceIte]
        cancel
    · simp only [e, ↓reduceIte, pure_bind] at hw ⊢
      refine Triple.pre ?_ (hk _ _ _ ⟨rfl, fun _ => rfl, fun h => by cases h⟩ hw)
      simp only [↓reduceIte]
      cancel

section
variable (hr : r.Ok True Z S) (hij : i ≤ j) (hj : j ≤ r.len) (h1 : At A r first i) (h2 : At A r last j)
include hr hij hj h1 h2

theorem isHeapUntil_ref (hc : r.kind.cate = 4) {comp : V → V → Bool} (hO : OutOk r o A B) (hE : OutEx r o A) (ho : o.isNull = false) :
    RefC (A ∗ S) (IAlgo.isHeapUntil Z first last o comp) (Algo.isHeapUntil r.ref i j comp) (fun k _ => k ≤ j) (fun k a => B k a ∗ S) := by
  intro β γ K' K c Ψ F Q hw hk
  inz first hf0
  inz last hl0
  unfold Algo.isHeapUntil at hw
  unfold IAlgo.isHeapUntil
  simp only [hf0, hl0, ho, Bool.false_eq_true, or_self, ↓reduceIte, bind_assoc, pure_bind] at hw ⊢
  isteps
  refine hE hc (by cancel) ?_
  istep
  intro f _
  istep
  intro l _
  istep
  rw [show ((j : Int) - i).toNat = j - i by omega]
  refine newTmp (r := r) ?_
  refine newTmp (r := r) ?_
  refine newTmp (r := r) ?_
  refine (isHeapLoop_ref hr (f := f) (by omega)).use hw (by cancel) fun p q c1 hf hw => ?_
  obtain ⟨e1, e2, e3⟩ := hf
  rw [e1]
  cases hp : p.1
  · simp only [hp, Bool.false_eq_true, ↓reduceIte]
    have e3 := e3 hp
    refine hO.set (by cancel) (i := p.2) (by at_it) fun o => ?_
    refine free_tmp (q := q.2.2.2) (by cancel) ?_
    refine free_tmp (q := q.2.2.1) (by cancel) ?_
    isteps
    refine Triple.pre ?_ (hk _ _ _ (by omega) hw)
    cancel
  · simp only [hp, ↓reduceIte]
    have e2 := e2 hp
    refine hO.set (by cancel) (i := p.2) (by rw [show p.2 = j by omega]; at_it) fun o => ?_
    refine free_tmp (q := q.2.2.2) (by cancel) ?_
    refine free_tmp (q := q.2.2.1) (by cancel) ?_
    refine free_tmp (q := q.2.1) (by cancel) ?_
    isteps
    refine Triple.pre ?_ (hk _ _ _ (by omega) hw)
    cancel

theorem isHeap_ref (hc : r.kind.cate = 4) {comp : V → V → Bool} :
    RefC (A ∗ S) (IAlgo.isHeap Z first last comp) (Algo.isHeap r.ref i j comp) (fun p q => q = p) (fun _ _ => A ∗ S) := by
  intro β γ K' K c Ψ F Q hw hk
  inz first hf0
  inz last hl0
  unfold Algo.isHeap at hw
  unfold IAlgo.isHeap
  simp only [hf0, hl0, or_self, ↓reduceIte, bind_assoc, pure_bind] at hw ⊢
  istep
  istep
  istep
  intro f _
  istep
  intro l _
  refine (isHeapUntil_ref (A := It r f i ∗ It r l j) hr hij hj (by at_it) (by at_it) hc OutOk.loc0 OutEx.loc0 rfl).use hw (by cancel) fun k u c1 hf hw => ?_
  isteps
  refine Triple.pre ?_ (hk _ _ _ ?_ hw)
  · cancel
  · by_cases e : k = j <;> simp [e]
end

/-! ## insertion -/

/-- `comp(C_ITER_DEREF(x), v)` where only one of the programs has the variable -/
theorem cmpT_at {t : Nat} {v : V} {c : Heap V} {Ψ : α → Heap V → Prop} {comp : V → V → Bool} {K' : V → M V α} (h1 : At P r x i) (hr : r.Ok True Z S) (hw : Wp (ldV (r.ref i) >>= K') c Ψ)
    (hS : P ⊢ₛ S ∗ Ex c ∗ pts (t, 1) (.obj (some v)) ∗ R) (hi : i < r.len) {K : Bool → M V β}
    (hk : ∀ w c1, Wp (K' w) c1 Ψ → Triple True (S ∗ Ex c1 ∗ pts (t, 1) (.obj (some v)) ∗ R) (K (comp w v)) Q) : Triple True P (cmpV comp x (t, 1) >>= K) Q := by
  unfold cmpV
  simp only [bind_assoc]
  refine deref_at hr hS hi h1 ?_
  unfold cmp
  simp only [bind_assoc, pure_bind]
  refine (Vis.ldV (r.ref i)).use hw (F := S ∗ pts (t, 1) (.obj (some v)) ∗ R) (by cancel) fun w c1 hw1 => ?_
  step
  refine Triple.pre ?_ (hk w c1 hw1)
  cancel

/-- `comp(v, C_ITER_DEREF(x))` where only one of the programs has the variable -/
theorem tCmp_at {t : Nat} {v : V} {c : Heap V} {Ψ : α → Heap V → Prop} {comp : V → V → Bool} {K' : V → M V α} (h1 : At P r x i) (hr : r.Ok True Z S) (hw : Wp (ldV (r.ref i) >>= K') c Ψ)
    (hS : P ⊢ₛ S ∗ Ex c ∗ pts (t, 1) (.obj (some v)) ∗ R) (hi : i < r.len) {K : Bool → M V β}
    (hk : ∀ w c1, Wp (K' w) c1 Ψ → Triple True (S ∗ Ex c1 ∗ pts (t, 1) (.obj (some v)) ∗ R) (K (comp v w)) Q) : Triple True P (vCmp comp (t, 1) x >>= K) Q := by
  unfold vCmp
  simp only [bind_assoc]
  refine deref_at hr hS hi h1 ?_
  unfold cmp
  simp only [bind_assoc, pure_bind]
  refine Triple.pre (P' := pts (t, 1) (.obj (some v)) ∗ S ∗ Ex c ∗ R) (by cancel) ?_
  step
  refine (Vis.ldV (r.ref i)).use hw (F := S ∗ pts (t, 1) (.obj (some v)) ∗ R) (by cancel) fun w c1 hw1 => ?_
  refine Triple.pre ?_ (hk w c1 hw1)
  cancel

theorem pushLoop_ref (hr : r.Ok True Z S) {comp : V → V → Bool} {t hole p h : Nat} {v : V} (hi : i + hole < r.len) :
    RefC (It r f i ∗ Tmp r p ∗ Tmp r h ∗ pts (t, 1) (.obj (some v)) ∗ S) (pushLoop f comp t hole p h) (Algo.pushLoop r.slots i comp v hole)
      (fun k q => q.1 = k ∧ k ≤ hole) (fun _ q => It r f i ∗ Tmp r q.2.1 ∗ Tmp r q.2.2 ∗ pts (t, 1) (.obj (some v)) ∗ S) := by
  induction hN : hole using Nat.strongRecOn generalizing hole p h with
  | _ N ih =>
    intro β γ K' K c Ψ F Q hw hk
    subst hN
    rw [Algo.pushLoop] at hw
    rw [pushLoop]
    by_cases e : 0 < hole
    · simp only [e, ↓reduceIte, bind_assoc] at hw ⊢
      refine copyMove_tmp (k := i + (hole - 1) / 2) (q := p) (by cancel) (by at_it) hr (by cancel) (by omega) (by omega) (by omega) (.inl (by omega)) fun p _ => ?_
      refine copyMove_tmp (k := i + hole) (q := h) (by cancel) (by at_it) hr (by cancel) (by omega) (by omega) (by omega) (.inl (by omega)) fun h _ => ?_
      refine room_ldV hw (by cancel) fun _ hw => ?_
      refine cmpT_at (by at_it) hr hw (by cancel) (by omega) fun w c1 hw => ?_
      generalize comp w v = bb at hw ⊢
      cases bb
      · simp only [Bool.false_eq_true, ↓reduceIte, pure_bind] at hw ⊢
        refine toTmp (q := p) (by cancel) ?_
        refine toTmp (q := h) (by cancel) ?_
        refine Triple.pre ?_ (hk _ _ _ ⟨rfl, Nat.le_refl _⟩ hw)
        cancel
      · simp only [↓reduceIte, bind_assoc] at hw ⊢
        refine room_asg2 hw (by cancel) fun _ _ hw => ?_
        istep
        intro c1 hw
        refine toTmp (q := p) (by cancel) ?_
        refine toTmp (q := h) (by cancel) ?_
        refine (ih ((hole - 1) / 2) (by omega) (hole := (hole - 1) / 2) (by omega) rfl).use hw (by cancel) fun k q c1 hf hw => ?_
        exact hk _ _ _ ⟨hf.1, by omega⟩ hw
    · simp only [e, ↓reduceIte, pure_bind] at hw ⊢
      refine Triple.pre ?_ (hk _ _ _ ⟨rfl, Nat.le_refl _⟩ hw)
      cancel

theorem free_obj {t : Nat} {w : Option V} (he : P ⊢ₛ pts (t, 1) (.obj w) ∗ blk t 1 ∗ R) {K : Unit → M V β} (hk : Triple True R (K ()) Q) : Triple True P (free t >>= K) Q := by
  refine Triple.pre (P' := (blk t 1 ∗ arr t 1 [.obj w]) ∗ R) (ent_trans he ?_) (Triple.free_spec rfl hk)
  simp only [arr]
  cancel

section
variable (hr : r.Ok True Z S) (hij : i ≤ j) (hj : j ≤ r.len) (h1 : At A r first i) (h2 : At A r last j)
include hr hij hj h1 h2

theorem pushHeap_ref (hb : r.kind.bidir) (hc : r.kind.cate = 4) {comp : V → V → Bool} :
    RefC (A ∗ S) (IAlgo.pushHeap Z first last comp) (Algo.pushHeap r.slots i j comp) (fun _ _ => True) (fun _ _ => A ∗ S) := by
  intro β γ K' K c Ψ F Q hw hk
  inz first hf0
  inz last hl0
  unfold Algo.pushHeap at hw
  unfold IAlgo.pushHeap
  simp only [hf0, hl0, or_self, ↓reduceIte, bind_assoc]
  isteps
  by_cases e : j - i < 2
  · have e' : (j : Int) - i < 2 := by omega
    simp only [e, e', ↓reduceIte, pure_bind] at hw ⊢
    refine Triple.pre ?_ (hk () () _ trivial hw)
    cancel
  · have e' : ¬ (j : Int) - i < 2 := by omega
    have ej : j ≠ 0 := by omega
    simp only [e, e', ↓reduceIte, bind_assoc, Algo.dec, ej, pure_bind] at hw ⊢
    istep
    intro f _
    istep
    intro l _
    istep
    istep
    istep
    rw [show (((j - 1 : Nat) : Int) - i).toNat = j - 1 - i by omega]
    apply mallocO1
    · exact fun h => absurd trivial h
    intro t ht
    simp only [ht, ↓reduceIte, bind_assoc]
    istep
    refine room_ldV hw (by cancel) fun _ hw => ?_
    refine (Vis.ldV _).use hw (by cancel) fun v c1 hw => ?_
    step
    refine newTmp (r := r) ?_
    refine newTmp (r := r) ?_
    refine (pushLoop_ref hr (f := f) (i := i) (t := t) (v := v) (by omega)).use hw (by cancel) fun k q c1 hf hw => ?_
    obtain ⟨e1, e2⟩ := hf
    rw [e1]
    refine copyMove_tmp (k := i + k) (q := q.2.2) (by cancel) (by at_it) hr (by cancel) (by omega) (by omega) (by omega) (.inl (by omega)) fun h _ => ?_
    refine room_wr hw (by cancel) fun _ hw => ?_
    refine assignT_at (i := i + k) (by at_it) hr hw (by cancel) (by omega) fun c1 hw => ?_
    refine free_obj (by cancel) ?_
    istep
    refine free_tmp (q := q.2.1) (by cancel) ?_
    isteps
    refine Triple.pre ?_ (hk () () _ trivial hw)
    cancel
end

/-! ## removal -/

theorem popLoop_ref (hr : r.Ok True Z S) (hn : r.Real S) (hm : r.kind.type < 7) {comp : V → V → Bool} {len hole h l rr : Nat} (hi : i + len ≤ r.len) :
    RefC (It r f i ∗ Tmp r h ∗ Tmp r l ∗ Tmp r rr ∗ S) (popLoop f len comp hole h l rr) (Algo.popLoop r.slots i len hole comp)
      (fun _ _ => True) (fun _ q => It r f i ∗ Tmp r q.1 ∗ Tmp r q.2.1 ∗ Tmp r q.2.2 ∗ S) := by
  induction hN : len - hole using Nat.strongRecOn generalizing hole h l rr with
  | _ N ih =>
    intro β γ K' K c Ψ F Q hw hk
    rw [Algo.popLoop] at hw
    rw [popLoop]
    by_cases e : 2 * hole + 1 < len
    · simp only [e, ↓reduceIte, bind_assoc] at hw ⊢
      refine copyMove_tmp (k := i + hole) (q := h) (by cancel) (by at_it) hr (by cancel) (by omega) (by omega) (by omega) (.inl (by omega)) fun h _ => ?_
      refine copyMove_tmp (k := i + (2 * hole + 1)) (q := l) (by cancel) (by at_it) hr (by cancel) (by omega) (by omega) (by omega) (.inl (by omega)) fun l _ => ?_
      by_cases e2 : 2 * (hole + 1) < len
      · simp only [e2, ↓reduceIte, bind_assoc] at hw ⊢
        refine copyMove_tmp (k := i + 2 * (hole + 1)) (q := rr) (by cancel) (by at_it) hr (by cancel) (by omega) (by omega) (by omega) (.inl (by omega)) fun rr _ => ?_
        refine room_cmp hw (by cancel) fun _ _ hw => ?_
        istep
        intro b c1 hw
        cases b
        · simp only [Bool.false_eq_true, ↓reduceIte, bind_assoc] at hw ⊢
          refine room_cmp hw (by cancel) fun _ _ hw => ?_
          istep
          intro b c1 hw
          cases b
          · simp only [Bool.false_eq_true, ↓reduceIte, pure_bind] at hw ⊢
            refine toTmp (q := h) (by cancel) ?_
            refine toTmp (q := l) (by cancel) ?_
            refine toTmp (q := rr) (by cancel) ?_
            refine Triple.pre ?_ (hk _ _ _ trivial hw)
            cancel
          · simp only [↓reduceIte, bind_assoc] at hw ⊢
            refine room_swp hw (by cancel) fun _ _ hw => ?_
            istep
            intro c1 hw
            refine toTmp (q := h) (by cancel) ?_
            refine toTmp (q := l) (by cancel) ?_
            refine toTmp (q := rr) (by cancel) ?_
            exact (ih (len - (2 * hole + 1)) (by omega) (hole := 2 * hole + 1) rfl).use hw (by cancel) hk
        · simp only [↓reduceIte, bind_assoc] at hw ⊢
          refine room_cmp hw (by cancel) fun _ _ hw => ?_
          istep
          intro b c1 hw
          cases b
          · simp only [Bool.false_eq_true, ↓reduceIte, pure_bind] at hw ⊢
            refine toTmp (q := h) (by cancel) ?_
            refine toTmp (q := l) (by cancel) ?_
            refine toTmp (q := rr) (by cancel) ?_
            refine Triple.pre ?_ (hk _ _ _ trivial hw)
            cancel
          · simp only [↓reduceIte, bind_assoc] at hw ⊢
            refine room_swp hw (by cancel) fun _ _ hw => ?_
            istep
            intro c1 hw
            refine toTmp (q := h) (by cancel) ?_
            refine toTmp (q := l) (by cancel) ?_
            refine toTmp (q := rr) (by cancel) ?_
            exact (ih (len - (2 * (hole + 1))) (by omega) (hole := 2 * (hole + 1)) rfl).use hw (by cancel) hk
      · simp only [e2, ↓reduceIte, bind_assoc] at hw ⊢
        refine room_cmp hw (by cancel) fun _ _ hw => ?_
        istep
        intro b c1 hw
        cases b
        · simp only [Bool.false_eq_true, ↓reduceIte, pure_bind] at hw ⊢
          refine toTmp (q := h) (by cancel) ?_
          refine toTmp (q := l) (by cancel) ?_
          refine Triple.pre ?_ (hk _ _ _ trivial hw)
          cancel
        · simp only [↓reduceIte, bind_assoc] at hw ⊢
          refine room_swp hw (by cancel) fun _ _ hw => ?_
          istep
          intro c1 hw
          refine toTmp (q := h) (by cancel) ?_
          refine toTmp (q := l) (by cancel) ?_
          exact (ih (len - (2 * hole + 1)) (by omega) (hole := 2 * hole + 1) rfl).use hw (by cancel) hk
    · simp only [e, ↓reduceIte, pure_bind] at hw ⊢
      refine Triple.pre ?_ (hk _ _ _ trivial hw)
      cancel

section
variable (hr : r.Ok True Z S) (hij : i ≤ j) (hj : j ≤ r.len) (h1 : At A r first i) (h2 : At A r last j)
include hr hij hj h1 h2

theorem popHeap_ref (hb : r.kind.bidir) (hc : r.kind.cate = 4) (hn : r.Real S) (hm : r.kind.type < 7) {comp : V → V → Bool} :
    RefC (A ∗ S) (IAlgo.popHeap Z first last comp) (Algo.popHeap r.slots i j comp) (fun _ _ => True) (fun _ _ => A ∗ S) := by
  intro β γ K' K c Ψ F Q hw hk
  inz first hf0
  inz last hl0
  unfold Algo.popHeap at hw
  unfold IAlgo.popHeap
  simp only [hf0, hl0, or_self, ↓reduceIte, bind_assoc]
  isteps
  by_cases e : j - i < 2
  · have e' : (j : Int) - i < 2 := by omega
    simp only [e, e', ↓reduceIte, pure_bind] at hw ⊢
    refine Triple.pre ?_ (hk () () _ trivial hw)
    cancel
  · have e' : ¬ (j : Int) - i < 2 := by omega
    have ej : j ≠ 0 := by omega
    simp only [e, e', ↓reduceIte, bind_assoc, Algo.dec, ej, pure_bind] at hw ⊢
    istep
    intro f _
    istep
    intro l _
    istep
    refine room_swp hw (by cancel) fun _ _ hw => ?_
    istep
    intro c1 hw
    istep
    rw [show (((j - 1 : Nat) : Int) - i).toNat = j - 1 - i by omega]
    refine newTmp (r := r) ?_
    refine newTmp (r := r) ?_
    refine newTmp (r := r) ?_
    refine (popLoop_ref hr hn hm (f := f) (i := i) (by omega)).use hw (by cancel) fun _ q c1 _ hw => ?_
    refine free_tmp (q := q.2.2) (by cancel) ?_
    refine free_tmp (q := q.2.1) (by cancel) ?_
    refine free_tmp (q := q.1) (by cancel) ?_
    isteps
    refine Triple.pre ?_ (hk () () _ trivial hw)
    cancel
end

theorem sortHeapLoop_ref (hr : r.Ok True Z S) (hb : r.kind.bidir) (hc : r.kind.cate = 4) (hn : r.Real S) (hm : r.kind.type < 7) {comp : V → V → Bool} (hij : i ≤ j) (hj : j ≤ r.len) :
    RefC (It r f i ∗ It r l j ∗ S) (sortHeapLoop Z f l comp) (Algo.sortHeapLoop r.slots i j comp) (fun _ _ => True) (fun _ _ => It r f i ∗ It r l i ∗ S) := by
  induction hN : j - i generalizing j with
  | zero =>
    obtain rfl : i = j := by omega
    lzero Algo.sortHeapLoop sortHeapLoop
    refine Triple.pre ?_ (hk () () _ trivial hw)
    cancel
  | succ N ih =>
    have h1 : i ≠ j := by omega
    lsucc Algo.sortHeapLoop sortHeapLoop h1
    have ej : j ≠ 0 := by omega
    refine (popHeap_ref (A := It r f i ∗ It r l j) hr hij hj (by at_it) (by at_it) hb hc hn hm).use hw (by cancel) fun _ _ c1 _ hw => ?_
    simp only [Algo.dec, ej, ↓reduceIte, pure_bind] at hw
    istep
    exact (ih (j := j - 1) (by omega) (by omega) (by omega)).use hw (by cancel) hk

section
variable (hr : r.Ok True Z S) (hij : i ≤ j) (hj : j ≤ r.len) (h1 : At A r first i) (h2 : At A r last j)
include hr hij hj h1 h2

theorem sortHeap_ref (hb : r.kind.bidir) (hc : r.kind.cate = 4) (hn : r.Real S) (hm : r.kind.type < 7) {comp : V → V → Bool} :
    RefC (A ∗ S) (IAlgo.sortHeap Z first last comp) (Algo.sortHeap r.slots i j comp) (fun _ _ => True) (fun _ _ => A ∗ S) := by
  intro β γ K' K c Ψ F Q hw hk
  inz first hf0
  inz last hl0
  unfold Algo.sortHeap at hw
  unfold IAlgo.sortHeap
  simp only [hf0, hl0, or_self, ↓reduceIte, bind_assoc]
  isteps
  by_cases e : j - i < 2
  · have e' : (j : Int) - i < 2 := by omega
    simp only [e, e', ↓reduceIte, pure_bind] at hw ⊢
    refine Triple.pre ?_ (hk () () _ trivial hw)
    cancel
  · have e' : ¬ (j : Int) - i < 2 := by omega
    simp only [e, e', ↓reduceIte, bind_assoc] at hw ⊢
    istep
    intro f _
    istep
    intro l _
    refine (sortHeapLoop_ref hr hb hc hn hm hij hj (f := f) (l := l)).use hw (by cancel) fun _ _ c1 _ hw => ?_
    isteps
    refine Triple.pre ?_ (hk () () _ trivial hw)
    cancel
end

end CC.IAlgo
