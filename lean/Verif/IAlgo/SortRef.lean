import Verif.IAlgo.HeapRef
import Verif.IAlgo.Sort
import Verif.Algo.SortSpec2
/-!
# `algorithm/c_sorting.c` on iterator objects does what the programs on positions do
-/
namespace CC.IAlgo
open CC CC.Tac CC.Iter CC.Algo
variable {V α β γ : Type} {Z : Nat → Nat} {S A P F R : HProp V} {r r2 r3 : Src V} {x y i j k n a b f l d q first last dFirst dLast : Nat} {o o2 : Out} {B : Nat → Nat → HProp V} {Q : β → HProp V}

theorem random_of {k : Kind} (h : k.cate = 4) : k.random := by
  cases k <;> first | (exact absurd h (by decide)) | simp [Kind.random]

/-! ## partial sort -/

theorem partialSortLoop_ref (hr : r.Ok True Z S) (hb : r.kind.bidir) (hc : r.kind.cate = 4) (hn : r.Real S) (hm : r.kind.type < 7) {comp : V → V → Bool} {m p t : Nat} (hij : i < k) (hk' : k ≤ j) (hj : j ≤ r.len) (hl : l ≤ j) :
    RefC (It r f i ∗ It r m k ∗ It r d j ∗ It r p (k - 1) ∗ It r t l ∗ S) (partialSortLoop Z comp f m d p t) (Algo.partialSortLoop r.slots comp i k j l)
      (fun _ _ => True) (fun _ _ => It r f i ∗ It r m k ∗ It r d j ∗ It r p (k - 1) ∗ It r t j ∗ S) := by
  induction hN : j - l generalizing l with
  | zero =>
    obtain rfl : l = j := by omega
    lzero Algo.partialSortLoop partialSortLoop
    refine Triple.pre ?_ (hk _ _ _ trivial hw)
    cancel
  | succ N ih =>
    have h1 : l ≠ j := by omega
    lsucc Algo.partialSortLoop partialSortLoop h1
    refine room_cmp hw (by cancel) fun _ _ hw => ?_
    istep
    intro b c1 hw
    cases b
    · simp only [Bool.false_eq_true, ↓reduceIte, pure_bind] at hw ⊢
      istep
      exact (ih (l := l + 1) (by omega) (by omega)).use hw (by cancel) hk
    · simp only [↓reduceIte, bind_assoc] at hw ⊢
      refine (popHeap_ref (A := It r f i ∗ It r m k) hr (by omega) (by omega) (by at_it) (by at_it) hb hc hn hm).use hw (by cancel) fun _ _ c1 _ hw => ?_
      refine room_swp hw (by cancel) fun _ _ hw => ?_
      istep
      intro c1 hw
      refine (pushHeap_ref (A := It r f i ∗ It r m k) hr (by omega) (by omega) (by at_it) (by at_it) hb hc).use hw (by cancel) fun _ _ c1 _ hw => ?_
      istep
      exact (ih (l := l + 1) (by omega) (by omega)).use hw (by cancel) hk

theorem partialSort_ref (hr : r.Ok True Z S) (hik : i ≤ k) (hkj : k ≤ j) (hj : j ≤ r.len) {middle : Nat} (h1 : At A r first i) (h2 : At A r middle k) (h3 : At A r last j)
    (hb : r.kind.bidir) (hc : r.kind.cate = 4) (hfar : r.Far S) (hn : r.Real S) (hm : r.kind.type < 7) {comp : V → V → Bool} :
    RefC (A ∗ S) (IAlgo.partialSort Z first middle last comp) (Algo.partialSort r.slots i k j comp) (fun _ _ => True) (fun _ _ => A ∗ S) := by
  intro β γ K' K c Ψ F Q hw hk
  inz first hf0
  inz middle hm0
  inz last hl0
  unfold Algo.partialSort at hw
  unfold IAlgo.partialSort
  simp only [hf0, hm0, hl0, or_self, ↓reduceIte, bind_assoc]
  isteps
  by_cases e : i = k
  · simp only [e, decide_true, ↓reduceIte, pure_bind] at hw ⊢
    refine Triple.pre ?_ (hk () () _ trivial hw)
    cancel
  · simp only [e, decide_false, Bool.false_eq_true, ↓reduceIte, bind_assoc] at hw ⊢
    istep
    intro f _
    istep
    intro m _
    istep
    intro l _
    istep
    intro t _
    refine copyMove_at (k := k - 1) (x := m) (by at_it) hr (by cancel) (by omega) (by omega) (by omega) (.inr hb) fun p _ => ?_
    refine (makeHeap_ref (A := It r f i ∗ It r m k) hr (by omega) (by omega) (by at_it) (by at_it) hfar hn hm hc).use hw (by cancel) fun _ _ c1 _ hw => ?_
    refine (partialSortLoop_ref hr hb hc hn hm (f := f) (m := m) (d := l) (p := p) (t := t) (i := i) (k := k) (j := j) (l := k) (by omega) hkj hj hkj).use hw (by cancel) fun _ _ c1 _ hw => ?_
    refine (sortHeap_ref (A := It r f i ∗ It r m k) hr (by omega) (by omega) (by at_it) (by at_it) hb hc hn hm).use hw (by cancel) fun _ _ c1 _ hw => ?_
    isteps
    refine Triple.pre ?_ (hk () () _ trivial hw)
    cancel

/-! ## quicksort -/

/-- a value that the function on positions has at hand and the other one in memory, or both in memory -/
def Held (T : HProp V) (l : Loc) (val : M V V) : Prop := RefC T (ldV l) val (fun v w => w = v) (fun _ _ => T)

theorem Held.hidden {t : Nat} {v : V} : Held (pts (t, 1) (.obj (some v))) (t, 1) (pure v) := by
  intro β γ K' K c Ψ F Q hw hk
  rw [pure_bind] at hw
  refine Triple.pre (P' := pts (t, 1) (.obj (some v)) ∗ Ex c ∗ F) (by cancel) ?_
  step
  refine Triple.pre ?_ (hk v v c rfl hw)
  cancel

theorem Held.seen {l : Loc} : Held (emp : HProp V) l (ldV l) := by
  intro β γ K' K c Ψ F Q hw hk
  rw [emp_sep]
  refine (Vis.ldV l).use hw (ent_refl _) fun v c1 hw => ?_
  refine Triple.pre ?_ (hk v v c1 rfl hw)
  cancel

theorem median_ref {x y z : Loc} {comp : V → V → Bool} :
    RefC (emp : HProp V) (IAlgo.median x y z comp) (Algo.median x y z comp) (fun _ t => t ≠ 0) (fun v t => pts (t, 1) (.obj (some v)) ∗ blk t 1) := by
  intro β γ K' K c Ψ F Q hw hk
  unfold Algo.median at hw
  unfold IAlgo.median
  simp only [bind_assoc]
  apply mallocO1
  · exact fun h => absurd trivial h
  intro t ht
  have hv : Vis (V := V) (do
    let b ← cmp comp x y
    if b then do
      let b ← cmp comp y z
      if b then ldV y
      else do
        let b ← cmp comp x z
        if b then ldV z else ldV x
    else do
      let b ← cmp comp x z
      if b then ldV x
      else do
        let b ← cmp comp y z
        if b then ldV z else ldV y) :=
    Vis.bind (Vis.cmp _ _ _) fun _ => Vis.ite (Vis.bind (Vis.cmp _ _ _) fun _ => Vis.ite (Vis.ldV _) (Vis.bind (Vis.cmp _ _ _) fun _ => Vis.ite (Vis.ldV _) (Vis.ldV _)))
      (Vis.bind (Vis.cmp _ _ _) fun _ => Vis.ite (Vis.ldV _) (Vis.bind (Vis.cmp _ _ _) fun _ => Vis.ite (Vis.ldV _) (Vis.ldV _)))
  rw [← bind_assoc]
  refine hv.use hw (F := pts (t, 1) (.obj none) ∗ blk t 1 ∗ F) (by cancel) fun v c1 hw => ?_
  simp only [ht, ↓reduceIte, bind_assoc]
  step
  simp only [pure_bind]
  refine Triple.pre ?_ (hk v t c1 ht hw)
  cancel

theorem room_dec {c : Heap V} {Ψ : α → Heap V → Prop} {K' : Nat → M V α} (hw : Wp (Algo.dec a >>= K') c Ψ) (he : P ⊢ₛ Ex c ∗ R) {m : M V β}
    (hk : 0 < a → Wp (K' (a - 1)) c Ψ → Triple True P m Q) : Triple True P m Q := by
  refine room (p := 0 < a) hw he (fun s b s' e => ?_) fun h => hk h ?_
  · refine Decidable.byContradiction fun hn => ?_
    obtain rfl : a = 0 := by omega
    obtain ⟨_, _, e, _⟩ := bind_inv e
    simp only [Algo.dec, ↓reduceIte] at e
    cases e
  · have h' : a ≠ 0 := by omega
    simp only [Algo.dec, h', ↓reduceIte, pure_bind] at hw
    exact hw

theorem upScan_ref (hr : r.Ok True Z S) {comp : V → V → Bool} {t : Nat} {v : V} (hi : i ≤ r.len) :
    RefC (It r f i ∗ pts (t, 1) (.obj (some v)) ∗ S) (upScan comp (t, 1) f) (Algo.upScan r.slots comp v i)
      (fun k _ => i ≤ k ∧ k < r.len) (fun k _ => It r f k ∗ pts (t, 1) (.obj (some v)) ∗ S) := by
  induction hN : r.len - i generalizing i with
  | zero =>
    intro β γ K' K c Ψ F Q hw hk
    rw [Algo.upScan] at hw
    unfold test at hw
    simp only [bind_assoc] at hw
    exact room_ldV hw (by cancel) fun _ hw => by omega
  | succ N ih =>
    intro β γ K' K c Ψ F Q hw hk
    rw [Algo.upScan] at hw
    rw [upScan]
    unfold test at hw
    simp only [bind_assoc, pure_bind] at hw ⊢
    refine room_ldV hw (by cancel) fun _ hw => ?_
    refine cmpT_at (by at_it) hr hw (by cancel) (by omega) fun w c1 hw => ?_
    generalize comp w v = bb at hw ⊢
    cases bb
    · simp only [Bool.false_eq_true, ↓reduceIte, pure_bind] at hw ⊢
      refine Triple.pre ?_ (hk _ _ _ ⟨Nat.le_refl _, by omega⟩ hw)
      cancel
    · simp only [↓reduceIte, bind_assoc] at hw ⊢
      istep
      refine (ih (i := i + 1) (by omega) (by omega)).use hw (by cancel) fun k _ c1 hf hw => ?_
      exact hk _ _ _ ⟨by omega, hf.2⟩ hw

theorem downScan_ref (hr : r.Ok True Z S) (hb : r.kind.bidir) {comp : V → V → Bool} {t : Nat} {v : V} (hi : i ≤ r.len) :
    RefC (It r f i ∗ pts (t, 1) (.obj (some v)) ∗ S) (downScan comp (t, 1) f) (Algo.downScan r.slots comp v i)
      (fun k _ => k ≤ i ∧ k < r.len) (fun k _ => It r f k ∗ pts (t, 1) (.obj (some v)) ∗ S) := by
  induction i with
  | zero =>
    intro β γ K' K c Ψ F Q hw hk
    rw [Algo.downScan] at hw
    rw [downScan]
    unfold test at hw
    simp only [bind_assoc, pure_bind] at hw ⊢
    refine room_ldV hw (by cancel) fun _ hw => ?_
    refine tCmp_at (by at_it) hr hw (by cancel) (by omega) fun w c1 hw => ?_
    generalize comp v w = bb at hw ⊢
    cases bb
    · simp only [Bool.false_eq_true, ↓reduceIte, pure_bind] at hw ⊢
      refine Triple.pre ?_ (hk _ _ _ ⟨Nat.le_refl _, by omega⟩ hw)
      cancel
    · simp only [↓reduceIte, bind_assoc] at hw ⊢
      exact room_dec hw (by cancel) fun h _ => by omega
  | succ i ih =>
    intro β γ K' K c Ψ F Q hw hk
    rw [Algo.downScan] at hw
    rw [downScan]
    unfold test at hw
    simp only [bind_assoc, pure_bind] at hw ⊢
    refine room_ldV hw (by cancel) fun _ hw => ?_
    refine tCmp_at (by at_it) hr hw (by cancel) (by omega) fun w c1 hw => ?_
    generalize comp v w = bb at hw ⊢
    cases bb
    · simp only [Bool.false_eq_true, ↓reduceIte, pure_bind] at hw ⊢
      refine Triple.pre ?_ (hk _ _ _ ⟨Nat.le_refl _, by omega⟩ hw)
      cancel
    · simp only [↓reduceIte, bind_assoc] at hw ⊢
      refine room_dec hw (by cancel) fun h hw => ?_
      istep
      refine (ih (by omega)).use hw (by cancel) fun k _ c1 hf hw => ?_
      exact hk _ _ _ ⟨by omega, hf.2⟩ hw

theorem hoareLoop_ref (hr : r.Ok True Z S) (hb : r.kind.bidir) (hc : r.kind.cate = 4) (hn : r.Real S) (hm : r.kind.type < 7) {comp : V → V → Bool} {t : Nat} {v : V} (hi : i ≤ r.len) (hj : j ≤ r.len) :
    RefC (It r f i ∗ It r l j ∗ pts (t, 1) (.obj (some v)) ∗ S) (hoareLoop comp (t, 1) f l) (Algo.hoare r.slots comp v i j)
      (fun k _ => i ≤ k ∧ k < r.len) (fun k _ => It r f k ∗ Tmp r l ∗ pts (t, 1) (.obj (some v)) ∗ S) := by
  have hrd := random_of hc
  induction hN : j using Nat.strongRecOn generalizing i j with
  | _ N ih =>
    subst hN
    intro β γ K' K c Ψ F Q hw hk
    rw [Algo.hoare] at hw
    rw [hoareLoop]
    simp only [bind_assoc] at hw ⊢
    refine (upScan_ref hr (f := f) (i := i) (t := t) (v := v) hi).use hw (by cancel) fun a _ c1 hf1 hw => ?_
    refine room_dec hw (by cancel) fun h0 hw => ?_
    istep
    refine (downScan_ref hr hb (f := l) (i := j - 1) (t := t) (v := v) (by omega)).use hw (by cancel) fun b _ c1 hf2 hw => ?_
    istep
    by_cases e : a < b
    · simp only [e, decide_true, ↓reduceIte, bind_assoc] at hw ⊢
      refine room_swp hw (by cancel) fun _ _ hw => ?_
      istep
      intro c1 hw
      istep
      refine (ih b (by omega) (i := a + 1) (j := b) (by omega) (by omega) rfl).use hw (by cancel) fun k _ c1 hf hw => ?_
      exact hk _ _ _ ⟨by omega, hf.2⟩ hw
    · simp only [e, decide_false, Bool.false_eq_true, ↓reduceIte, pure_bind] at hw ⊢
      refine toTmp (q := l) (by cancel) ?_
      refine Triple.pre ?_ (hk _ _ _ hf1 hw)
      cancel

theorem hoare_ref (hr : r.Ok True Z S) (hb : r.kind.bidir) (hc : r.kind.cate = 4) (hn : r.Real S) (hm : r.kind.type < 7) {comp : V → V → Bool} {t : Nat} {v : V} (hi : i ≤ r.len) (hj : j ≤ r.len)
    (h1 : At A r first i) (h2 : At A r last j) :
    RefC (A ∗ pts (t, 1) (.obj (some v)) ∗ S) (IAlgo.hoare comp (t, 1) first last) (Algo.hoare r.slots comp v i j)
      (fun k _ => i ≤ k ∧ k < r.len) (fun k q => It r q k ∗ A ∗ pts (t, 1) (.obj (some v)) ∗ S) := by
  intro β γ K' K c Ψ F Q hw hk
  unfold IAlgo.hoare
  simp only [bind_assoc]
  istep
  intro f _
  istep
  intro l _
  refine (hoareLoop_ref hr hb hc hn hm (f := f) (l := l) (i := i) (j := j) (t := t) (v := v) hi hj).use hw (by cancel) fun k _ c1 hf hw => ?_
  refine set_loc0 (w := f) (i := k) (by at_it) fun q _ => ?_
  istep
  refine free_tmp (q := l) (by cancel) ?_
  simp only [pure_bind]
  refine Triple.pre ?_ (hk k q c1 hf hw)
  cancel

/-- `Algo.introsort` that gives up when the parts do not lie in the range; see `introsortG_spec`: they do -/
def introsortG (c : Slots) (comp : V → V → Bool) : Nat → Nat → Nat → M V Unit
  | 0, first, last => if last - first > threshold then Algo.partialSort c first last last comp else pure ()
  | depth + 1, first, last =>
    if last - first > threshold then do
      let pivot ← Algo.median (c first) (c (first + (last - first) / 2)) (c (last - 1)) comp
      let part ← Algo.hoare c comp pivot first last
      if last < part then ub else do
      introsortG c comp depth part last
      introsortG c comp depth first part
    else pure ()

theorem introWith_ref (hr : r.Ok True Z S) {loop : Nat → Nat → Nat → Nat → M V (Nat × Nat)} {m' : M V Unit} (h1 : At A r first i) (h2 : At A r last j)
    (hloop : ∀ f l m p, RefC (It r f i ∗ It r l j ∗ Tmp r m ∗ Tmp r p ∗ S) (loop f l m p) m' (fun _ _ => True) (fun _ q => It r f i ∗ Tmp r l ∗ Tmp r q.1 ∗ Tmp r q.2 ∗ S)) :
    RefC (A ∗ S) (introWith loop first last) m' (fun _ _ => True) (fun _ _ => A ∗ S) := by
  intro β γ K' K c Ψ F Q hw hk
  unfold introWith
  simp only [bind_assoc]
  istep
  istep
  intro f _
  istep
  intro l _
  refine newTmp (r := r) ?_
  refine newTmp (r := r) ?_
  refine (hloop f l 0 0).use hw (by cancel) fun _ q c1 _ hw => ?_
  refine free_tmp (q := q.2) (by cancel) ?_
  refine free_tmp (q := q.1) (by cancel) ?_
  istep
  refine free_tmp (q := l) (by cancel) ?_
  refine Triple.pre ?_ (hk () () _ trivial hw)
  cancel

theorem introLoop_ref (hr : r.Ok True Z S) (hb : r.kind.bidir) (hc : r.kind.cate = 4) (hn : r.Real S) (hm : r.kind.type < 7) {comp : V → V → Bool} {depth : Nat}
    (hfar : threshold < j - i → r.Far S) (hij : i ≤ j) (hj : j ≤ r.len) (f l m p : Nat) :
    RefC (It r f i ∗ It r l j ∗ Tmp r m ∗ Tmp r p ∗ S) (introLoop Z comp depth f l m p) (introsortG r.slots comp depth i j)
      (fun _ _ => True) (fun _ q => It r f i ∗ Tmp r l ∗ Tmp r q.1 ∗ Tmp r q.2 ∗ S) := by
  have ht : threshold = 512 := rfl
  induction depth generalizing i j f l m p with
  | zero =>
    intro β γ K' K c Ψ F Q hw hk
    rw [introsortG] at hw
    rw [introLoop]
    simp only [bind_assoc] at hw ⊢
    istep
    by_cases e : j - i > threshold
    · have e' : (j : Int) - i > threshold := by omega
      simp only [e, e', ↓reduceIte] at hw ⊢
      refine (partialSort_ref (A := It r f i ∗ It r l j) hr hij (Nat.le_refl _) hj (by at_it) (by at_it) (by at_it) hb hc (hfar e) hn hm).use hw (by cancel) fun _ _ c1 _ hw => ?_
      simp only [pure_bind]
      refine toTmp (q := l) (by cancel) ?_
      refine Triple.pre ?_ (hk _ _ _ trivial hw)
      cancel
    · have e' : ¬ (j : Int) - i > threshold := by omega
      simp only [e, e', ↓reduceIte, pure_bind] at hw ⊢
      refine toTmp (q := l) (by cancel) ?_
      refine Triple.pre ?_ (hk _ _ _ trivial hw)
      cancel
  | succ depth ih =>
    intro β γ K' K c Ψ F Q hw hk
    rw [introsortG] at hw
    rw [introLoop]
    simp only [bind_assoc] at hw ⊢
    istep
    by_cases e : j - i > threshold
    · have e' : (j : Int) - i > threshold := by omega
      simp only [e, e', ↓reduceIte, bind_assoc] at hw ⊢
      istep
      rw [show ((j : Int) - i).toNat = j - i by omega]
      refine copyMove_tmp (k := i + (j - i) / 2) (q := m) (by cancel) (by at_it) hr (by cancel) (by omega) (by omega) (by omega) (.inl (by omega)) fun m _ => ?_
      refine copyMove_tmp (k := j - 1) (x := l) (q := p) (by cancel) (by at_it) hr (by cancel) (by omega) (by omega) (by omega) (.inr hb) fun p _ => ?_
      istep
      istep
      istep
      rw [slots_lt (show i < r.len by omega), slots_lt (show i + (j - i) / 2 < r.len by omega), slots_lt (show j - 1 < r.len by omega)] at hw
      refine median_ref.use hw (by cancel) fun v t c1 ht0 hw => ?_
      refine (hoare_ref (A := It r f i ∗ It r l j) (t := t) (v := v) hr hb hc hn hm (by omega) (by omega) (by at_it) (by at_it)).use hw (by cancel) fun k pt c1 hf hw => ?_
      by_cases hkj : j < k
      · simp only [hkj, ↓reduceIte] at hw
        exact (room (p := False) hw (by cancel) (fun s b s' e => by obtain ⟨_, _, e, _⟩ := bind_inv e; cases e) fun h => h.elim)
      simp only [hkj, ↓reduceIte, bind_assoc] at hw
      refine (introWith_ref (A := It r pt k ∗ It r l j) hr (by at_it) (by at_it) fun f l m p => ih (i := k) (j := j) (fun _ => hfar e) (by omega) hj f l m p).use hw (by cancel) fun _ _ c1 _ hw => ?_
      istep
      refine Triple.pre (P' := pts (t, 1) (.obj (some v)) ∗ It r l k ∗ It r pt k ∗ S ∗ Ex c1 ∗ blk t 1 ∗ It r f i ∗ It r m (i + (j - i) / 2) ∗ It r p (j - 1) ∗ F) (by cancel) ?_
      step
      call freeV1
      intro _
      rw [emp_sep]
      istep
      refine toTmp (q := m) (by cancel) ?_
      refine toTmp (q := p) (by cancel) ?_
      exact (ih (i := i) (j := k) (fun _ => hfar e) hf.1 (by omega) f l m p).use hw (by cancel) hk
    · have e' : ¬ (j : Int) - i > threshold := by omega
      simp only [e, e', ↓reduceIte, pure_bind] at hw ⊢
      refine toTmp (q := l) (by cancel) ?_
      refine Triple.pre ?_ (hk _ _ _ trivial hw)
      cancel

/-! ## insertion sort -/

theorem ulLoop_ref (hr : r.Ok True Z S) (hb : r.kind.bidir) {T : HProp V} {value : Loc} {val : M V V} (hT : Held T value val) {comp : V → V → Bool} (hi : i < r.len) (hj : j < r.len) :
    RefC (It r f j ∗ It r n i ∗ T ∗ S) (ulLoop value comp f n) (Algo.ulLoop r.slots val comp j i)
      (fun k _ => k < r.len) (fun k _ => It r f k ∗ Tmp r n ∗ T ∗ S) := by
  induction i generalizing j with
  | zero =>
    intro β γ K' K c Ψ F Q hw hk
    rw [Algo.ulLoop] at hw
    rw [ulLoop]
    unfold vCmp cmp
    simp only [bind_assoc, pure_bind] at hw ⊢
    istep
    refine hT.use hw (by cancel) fun v w c1 e hw => ?_
    subst e
    refine room_ldV hw (by cancel) fun _ hw => ?_
    refine (Vis.ldV _).use hw (by cancel) fun u c1 hw => ?_
    generalize comp w u = bb at hw ⊢
    cases bb
    · simp only [Bool.false_eq_true, ↓reduceIte, pure_bind] at hw ⊢
      refine toTmp (q := n) (by cancel) ?_
      refine Triple.pre ?_ (hk _ _ _ hj hw)
      cancel
    · simp only [↓reduceIte, bind_assoc] at hw ⊢
      refine room_asg2 hw (by cancel) fun _ _ hw => ?_
      istep
      intro c1 hw
      exact room_dec hw (by cancel) fun h _ => by omega
  | succ i ih =>
    intro β γ K' K c Ψ F Q hw hk
    rw [Algo.ulLoop] at hw
    rw [ulLoop]
    unfold vCmp cmp
    simp only [bind_assoc, pure_bind] at hw ⊢
    istep
    refine hT.use hw (by cancel) fun v w c1 e hw => ?_
    subst e
    refine room_ldV hw (by cancel) fun _ hw => ?_
    refine (Vis.ldV _).use hw (by cancel) fun u c1 hw => ?_
    generalize comp w u = bb at hw ⊢
    cases bb
    · simp only [Bool.false_eq_true, ↓reduceIte, pure_bind] at hw ⊢
      refine toTmp (q := n) (by cancel) ?_
      refine Triple.pre ?_ (hk _ _ _ hj hw)
      cancel
    · simp only [↓reduceIte, bind_assoc] at hw ⊢
      refine room_asg2 hw (by cancel) fun _ _ hw => ?_
      istep
      intro c1 hw
      refine room_dec hw (by cancel) fun h hw => ?_
      istep
      istep
      exact (ih (j := i + 1) (by omega) (by omega)).use hw (by cancel) hk

theorem unguardedLinear_ref (hr : r.Ok True Z S) (hb : r.kind.bidir) {T : HProp V} {value : Loc} {val : M V V} (hT : Held T value val) {comp : V → V → Bool} (hj : j < r.len) (h1 : At A r last j) :
    RefC (A ∗ T ∗ S) (IAlgo.unguardedLinear last value comp) (Algo.unguardedLinear r.slots val comp j) (fun _ _ => True) (fun _ _ => A ∗ T ∗ S) := by
  intro β γ K' K c Ψ F Q hw hk
  unfold Algo.unguardedLinear at hw
  unfold IAlgo.unguardedLinear
  simp only [bind_assoc] at hw ⊢
  refine room_dec hw (by cancel) fun h0 hw => ?_
  istep
  intro l _
  refine copyMove_at (k := j - 1) (x := l) (by at_it) hr (by cancel) (by omega) (by omega) (by omega) (.inr hb) fun n _ => ?_
  refine (ulLoop_ref hr hb hT (f := l) (n := n) (i := j - 1) (j := j) (by omega) hj).use hw (by cancel) fun k _ c1 hf hw => ?_
  unfold assignV asg
  simp only [bind_assoc]
  istep
  istep
  refine hT.use hw (by cancel) fun v w c1 e hw => ?_
  subst e
  refine room_wr hw (by cancel) fun _ hw => ?_
  refine (Vis.wr _ _).use hw (by cancel) fun _ c1 hw => ?_
  refine free_tmp (q := n) (by cancel) ?_
  istep
  refine Triple.pre ?_ (hk () () _ trivial hw)
  cancel

theorem copyBackwardLoop_slots (hij : i ≤ j) (hj : j ≤ r.len) (ha : a ≤ r2.len) (hja : j - i ≤ a) :
    Algo.copyBackwardLoop (V := V) r.slots r2.slots i j a n = Algo.copyBackwardLoop r.ref r2.ref i j a n := by
  induction hN : j - i generalizing j a n with
  | zero =>
    obtain rfl : i = j := by omega
    rw [Algo.copyBackwardLoop, Algo.copyBackwardLoop, if_neg (by simp), if_neg (by simp)]
  | succ N ih =>
    have h0 : j ≠ 0 := by omega
    have h1 : j ≠ i := by omega
    rw [Algo.copyBackwardLoop, Algo.copyBackwardLoop]
    have h2 : a ≠ 0 := by omega
    simp only [Algo.dec, h0, h1, h2, ↓reduceIte, pure_bind, ne_eq, not_false_eq_true]
    rw [slots_lt (show j - 1 < r.len by omega), slots_lt (show a - 1 < r2.len by omega), ih (j := j - 1) (a := a - 1) (by omega) (by omega) (by omega) (by omega) (by omega)]

theorem linearSort_ref (hr : r.Ok True Z S) (hb : r.kind.bidir) (hm : r.kind.type < 7) {low : Nat → Nat} (hlow : ∀ q, q ≠ 0 → 3 ≤ low q) {comp : V → V → Bool} (hij : i ≤ j) (hj : j < r.len)
    (h1 : At A r first i) (h2 : At A r last j) :
    RefC (A ∗ S) (IAlgo.linearSort low first last comp) (Algo.linearSort r.slots i j comp) (fun _ _ => True) (fun _ _ => A ∗ S) := by
  intro β γ K' K c Ψ F Q hw hk
  unfold Algo.linearSort at hw
  unfold IAlgo.linearSort
  simp only [bind_assoc] at hw ⊢
  istep
  intro f _
  istep
  intro l _
  istep
  apply mallocO1
  · exact fun h => absurd trivial h
  intro t ht
  have ht' : decide (t ≠ 0) = true := by simpa using ht
  simp only [ht', cassert, ↓reduceIte, pure_bind]
  istep
  refine room_ldV hw (by cancel) fun _ hw => ?_
  refine (Vis.ldV _).use hw (by cancel) fun v c1 hw => ?_
  step
  refine room_ldV hw (by cancel) fun _ hw => ?_
  refine tCmp_at (by at_it) hr hw (by cancel) (by omega) fun w c1 hw => ?_
  generalize comp v w = bb at hw ⊢
  cases bb
  · simp only [Bool.false_eq_true, ↓reduceIte, bind_assoc] at hw ⊢
    refine (unguardedLinear_ref (A := It r l j) hr hb (Held.hidden (t := t) (v := v)) hj (by at_it)).use hw (by cancel) fun _ _ c1 _ hw => ?_
    refine Triple.pre (P' := pts (t, 1) (.obj (some v)) ∗ It r l j ∗ It r f i ∗ A ∗ S ∗ Ex c1 ∗ blk t 1 ∗ F) (by cancel) ?_
    step
    call freeV1
    intro _
    rw [emp_sep]
    isteps
    refine Triple.pre ?_ (hk () () _ trivial hw)
    cancel
  · simp only [↓reduceIte, bind_assoc] at hw ⊢
    unfold Algo.copyBackward at hw
    rw [copyBackwardLoop_slots hij (by omega) (by omega) (by omega)] at hw
    refine copyMove_at (k := j + 1) (x := l) (by at_it) hr (by cancel) (by omega) (by omega) (by omega) (.inr hb) fun n _ => ?_
    refine (copyBackward_ref (A := It r f i ∗ It r l j ∗ It r n (j + 1)) (a := j + 1) hr hij (by omega) (by at_it) (by at_it) hr hm (by at_it) hb hb (by omega) (by omega) hlow OutOk.null).use hw (by cancel) fun _ _ c1 _ hw => ?_
    refine room_wr hw (by cancel) fun _ hw => ?_
    refine assignT_at (i := i) (t := t) (by at_it) hr hw (by cancel) (by omega) fun c1 hw => ?_
    istep
    refine Triple.pre (P' := pts (t, 1) (.obj (some v)) ∗ It r l j ∗ It r f i ∗ A ∗ S ∗ Ex c1 ∗ blk t 1 ∗ F) (by cancel) ?_
    step
    call freeV1
    intro _
    rw [emp_sep]
    isteps
    refine Triple.pre ?_ (hk () () _ trivial hw)
    cancel

theorem insertionLoop_ref (hr : r.Ok True Z S) (hb : r.kind.bidir) (hm : r.kind.type < 7) {low : Nat → Nat} (hlow : ∀ q, q ≠ 0 → 3 ≤ low q) {comp : V → V → Bool} {t : Nat} (hik : i ≤ k) (hkj : k ≤ j) (hj : j ≤ r.len) :
    RefC (It r f i ∗ It r t k ∗ It r l j ∗ S) (insertionLoop low comp f t l) (Algo.insertionLoop r.slots comp i k j) (fun _ _ => True) (fun _ _ => It r f i ∗ It r t j ∗ It r l j ∗ S) := by
  induction hN : j - k generalizing k with
  | zero =>
    obtain rfl : k = j := by omega
    lzero Algo.insertionLoop insertionLoop
    refine Triple.pre ?_ (hk _ _ _ trivial hw)
    cancel
  | succ N ih =>
    have h1 : k ≠ j := by omega
    lsucc Algo.insertionLoop insertionLoop h1
    refine (linearSort_ref (A := It r f i ∗ It r t k) hr hb hm hlow hik (by omega) (by at_it) (by at_it)).use hw (by cancel) fun _ _ c1 _ hw => ?_
    istep
    exact (ih (k := k + 1) (by omega) (by omega) (by omega)).use hw (by cancel) hk

theorem insertionSort_ref (hr : r.Ok True Z S) (hb : r.kind.bidir) (hm : r.kind.type < 7) {low : Nat → Nat} (hlow : ∀ q, q ≠ 0 → 3 ≤ low q) {comp : V → V → Bool} (hij : i ≤ j) (hj : j ≤ r.len)
    (h1 : At A r first i) (h2 : At A r last j) :
    RefC (A ∗ S) (IAlgo.insertionSort low first last comp) (Algo.insertionSort r.slots i j comp) (fun _ _ => True) (fun _ _ => A ∗ S) := by
  intro β γ K' K c Ψ F Q hw hk
  unfold Algo.insertionSort at hw
  unfold IAlgo.insertionSort
  simp only [bind_assoc]
  istep
  by_cases e : i = j
  · simp only [e, decide_true, ↓reduceIte, pure_bind] at hw ⊢
    refine Triple.pre ?_ (hk () () _ trivial hw)
    cancel
  · simp only [e, decide_false, Bool.false_eq_true, ↓reduceIte, bind_assoc] at hw ⊢
    istep
    intro f _
    istep
    intro l _
    refine copyMove_at (k := i + 1) (x := f) (by at_it) hr (by cancel) (by omega) (by omega) (by omega) (.inr hb) fun t _ => ?_
    refine (insertionLoop_ref hr hb hm hlow (f := f) (t := t) (l := l) (i := i) (k := i + 1) (j := j) (by omega) (by omega) hj).use hw (by cancel) fun _ _ c1 _ hw => ?_
    isteps
    refine Triple.pre ?_ (hk () () _ trivial hw)
    cancel

theorem unguardedLoop_ref (hr : r.Ok True Z S) (hb : r.kind.bidir) {comp : V → V → Bool} {t : Nat} (hkj : k ≤ j) (hj : j ≤ r.len) :
    RefC (It r t k ∗ It r l j ∗ S) (unguardedLoop comp t l) (Algo.unguardedInsertion r.slots comp k j) (fun _ _ => True) (fun _ _ => It r t j ∗ It r l j ∗ S) := by
  induction hN : j - k generalizing k with
  | zero =>
    obtain rfl : k = j := by omega
    lzero Algo.unguardedInsertion unguardedLoop
    refine Triple.pre ?_ (hk _ _ _ trivial hw)
    cancel
  | succ N ih =>
    have h1 : k ≠ j := by omega
    lsucc Algo.unguardedInsertion unguardedLoop h1
    istep
    rw [slots_lt (show k < r.len by omega)] at hw
    refine (unguardedLinear_ref (A := It r t k) hr hb Held.seen (by omega) (by at_it)).use hw (by cancel) fun _ _ c1 _ hw => ?_
    istep
    exact (ih (k := k + 1) (by omega) (by omega)).use hw (by cancel) hk

theorem unguardedInsertion_ref (hr : r.Ok True Z S) (hb : r.kind.bidir) {comp : V → V → Bool} (hij : i ≤ j) (hj : j ≤ r.len)
    (h1 : At A r first i) (h2 : At A r last j) :
    RefC (A ∗ S) (IAlgo.unguardedInsertion first last comp) (Algo.unguardedInsertion r.slots comp i j) (fun _ _ => True) (fun _ _ => A ∗ S) := by
  intro β γ K' K c Ψ F Q hw hk
  unfold IAlgo.unguardedInsertion
  simp only [bind_assoc]
  istep
  intro f _
  istep
  intro l _
  istep
  intro t _
  refine (unguardedLoop_ref hr hb (t := t) (l := l) (k := i) (j := j) hij hj).use hw (by cancel) fun _ _ c1 _ hw => ?_
  isteps
  refine Triple.pre ?_ (hk () () _ trivial hw)
  cancel

theorem finalSort_ref (hr : r.Ok True Z S) (hb : r.kind.bidir) (hm : r.kind.type < 7) {low : Nat → Nat} (hlow : ∀ q, q ≠ 0 → 3 ≤ low q) {comp : V → V → Bool} (hij : i ≤ j) (hj : j ≤ r.len)
    (h1 : At A r first i) (h2 : At A r last j) :
    RefC (A ∗ S) (IAlgo.finalSort Z low first last comp) (Algo.finalSort r.slots i j comp) (fun _ _ => True) (fun _ _ => A ∗ S) := by
  intro β γ K' K c Ψ F Q hw hk
  have ht : threshold = 512 := rfl
  unfold Algo.finalSort at hw
  unfold IAlgo.finalSort
  simp only [bind_assoc]
  istep
  intro f _
  istep
  intro l _
  istep
  by_cases e : j - i > threshold
  · have e' : (j : Int) - i > threshold := by omega
    simp only [e, e', ↓reduceIte, bind_assoc, pure_bind] at hw ⊢
    refine copyMove_at (k := i + threshold) (x := f) (by at_it) hr (by cancel) (by omega) (by omega) (by omega) (.inr hb) fun t _ => ?_
    refine (insertionSort_ref (A := It r f i ∗ It r t (i + threshold)) hr hb hm hlow (by omega) (by omega) (by at_it) (by at_it)).use hw (by cancel) fun _ _ c1 _ hw => ?_
    refine (unguardedInsertion_ref (A := It r l j ∗ It r t (i + threshold)) hr hb (by omega) (by omega) (by at_it) (by at_it)).use hw (by cancel) fun _ _ c1 _ hw => ?_
    isteps
    refine Triple.pre ?_ (hk () () _ trivial hw)
    cancel
  · have e' : ¬ (j : Int) - i > threshold := by omega
    simp only [e, e', ↓reduceIte, bind_assoc, pure_bind] at hw ⊢
    refine (insertionSort_ref (A := It r f i ∗ It r l j) hr hb hm hlow (by omega) (by omega) (by at_it) (by at_it)).use hw (by cancel) fun _ _ c1 _ hw => ?_
    refine Triple.free_null ?_
    isteps
    refine Triple.pre ?_ (hk () () _ trivial hw)
    cancel

/-! ## the whole sort -/

/-- `Algo.sort` with `introsortG` -/
def sortG (c : Slots) (first last : Nat) (comp : V → V → Bool) : M V Unit :=
  if first = last then pure () else do
  introsortG c comp (lg (last - first) * 2) first last
  Algo.finalSort c first last comp

theorem sort_ref (hr : r.Ok True Z S) (hb : r.kind.bidir) (hc : r.kind.cate = 4) (hfar : threshold < j - i → r.Far S) (hn : r.Real S) (hm : r.kind.type < 7) {low : Nat → Nat} (hlow : ∀ q, q ≠ 0 → 3 ≤ low q) {comp : V → V → Bool}
    (hij : i ≤ j) (hj : j ≤ r.len) (h1 : At A r first i) (h2 : At A r last j) :
    RefC (A ∗ S) (IAlgo.sort Z low first last comp) (sortG r.slots i j comp) (fun _ _ => True) (fun _ _ => A ∗ S) := by
  intro β γ K' K c Ψ F Q hw hk
  inz first hf0
  inz last hl0
  unfold sortG at hw
  unfold IAlgo.sort IAlgo.introsort
  simp only [hf0, hl0, or_self, ↓reduceIte, bind_assoc]
  isteps
  by_cases e : i = j
  · simp only [e, decide_true, ↓reduceIte, pure_bind] at hw ⊢
    refine Triple.pre ?_ (hk () () _ trivial hw)
    cancel
  · simp only [e, decide_false, Bool.false_eq_true, ↓reduceIte, bind_assoc] at hw ⊢
    istep
    intro f _
    istep
    intro l _
    istep
    rw [show ((j : Int) - i).toNat = j - i by omega]
    refine (introWith_ref (A := It r f i ∗ It r l j) hr (by at_it) (by at_it) fun f l m p => introLoop_ref hr hb hc hn hm hfar hij hj f l m p).use hw (by cancel) fun _ _ c1 _ hw => ?_
    refine (finalSort_ref (A := It r f i ∗ It r l j) hr hb hm hlow hij hj (by at_it) (by at_it)).use hw (by cancel) fun _ _ c1 _ hw => ?_
    isteps
    refine Triple.pre ?_ (hk () () _ trivial hw)
    cancel

/-! ## is_sorted -/

theorem sortedLoop_ref (hr : r.Ok True Z S) {comp : V → V → Bool} {t : Nat} (hi : i < j) (hj : j ≤ r.len) :
    RefC (It r f i ∗ It r t (i + 1) ∗ It r l j ∗ S) (sortedLoop comp f t l) (Algo.sortedLoop r.ref comp i (i + 1) j)
      (fun p q => q = p.1 ∧ i ≤ p.2 ∧ p.2 < j) (fun p _ => It r f p.2 ∗ Tmp r t ∗ It r l j ∗ S) := by
  induction hN : j - (i + 1) generalizing i with
  | zero =>
    obtain rfl : i + 1 = j := by omega
    lzero Algo.sortedLoop sortedLoop
    refine toTmp (q := t) (by cancel) ?_
    refine Triple.pre ?_ (hk _ _ _ ⟨rfl, Nat.le_refl _, by dsimp only; omega⟩ hw)
    cancel
  | succ N ih =>
    have h1 : i + 1 ≠ j := by omega
    lsucc Algo.sortedLoop sortedLoop h1
    istep
    intro b c1 hw
    cases b
    · simp only [Bool.false_eq_true, ↓reduceIte, bind_assoc] at hw ⊢
      istep
      istep
      refine (ih (i := i + 1) (by omega) (by omega)).use hw (by cancel) fun p _ c1 hf hw => ?_
      exact hk _ _ _ ⟨hf.1, by omega, hf.2.2⟩ hw
    · simp only [↓reduceIte, pure_bind] at hw ⊢
      refine toTmp (q := t) (by cancel) ?_
      refine Triple.pre ?_ (hk _ _ _ ⟨rfl, Nat.le_refl _, by dsimp only; omega⟩ hw)
      cancel

theorem OutIn.loc0 (h : At A r x i) : OutIn r (.val 0) A (fun i a => It r a i ∗ A) x i := by
  intro P R he γ K Q hk
  refine Triple.pre he ?_
  refine set_loc0 (h.mono (R := R) (ent_refl _)) fun q _ => ?_
  refine Triple.pre ?_ (hk q)
  cancel

section
variable (hr : r.Ok True Z S) (hij : i ≤ j) (hj : j ≤ r.len) (h1 : At A r first i) (h2 : At A r last j)
include hr hij hj h1 h2

theorem isSortedUntil_ref {comp : V → V → Bool} (hO : OutOk r o A B) (hI : OutIn r o A B last j) (hno : o.isNull = false) :
    RefC (A ∗ S) (IAlgo.isSortedUntil first last o comp) (Algo.isSortedUntil r.ref i j comp) (fun k _ => i ≤ k ∧ k ≤ j) (fun k q => B k q ∗ S) := by
  intro β γ K' K c Ψ F Q hw hk
  have hc := cate_ge r.kind
  inz first hf0
  inz last hl0
  unfold Algo.isSortedUntil at hw
  unfold IAlgo.isSortedUntil
  simp only [hf0, hl0, hno, Bool.false_eq_true, or_self, ↓reduceIte, bind_assoc]
  isteps
  refine hO.chk (by omega) (by cancel) ?_
  isteps
  by_cases e : i = j
  · simp only [e, decide_true, ↓reduceIte, pure_bind] at hw ⊢
    refine hI (by cancel) fun o => ?_
    refine Triple.pre ?_ (hk _ _ _ (by omega) hw)
    cancel
  · simp only [e, decide_false, Bool.false_eq_true, ↓reduceIte, bind_assoc] at hw ⊢
    istep
    intro f _
    istep
    intro l _
    istep
    intro t _
    istep
    refine (sortedLoop_ref hr (f := f) (t := t) (l := l) (i := i) (j := j) (by omega) hj).use hw (by cancel) fun p q c1 hf hw => ?_
    obtain ⟨e1, e2, e3⟩ := hf
    rw [e1]
    cases hp : p.1
    · simp only [hp, Bool.false_eq_true, ↓reduceIte, pure_bind] at hw ⊢
      refine hO.set (by cancel) (i := p.2) (by at_it) fun o => ?_
      refine free_tmp (q := t) (by cancel) ?_
      isteps
      refine Triple.pre ?_ (hk _ _ _ (by omega) hw)
      cancel
    · simp only [hp, ↓reduceIte, pure_bind] at hw ⊢
      refine hO.set (by cancel) (i := j) (by at_it) fun o => ?_
      refine free_tmp (q := t) (by cancel) ?_
      isteps
      refine Triple.pre ?_ (hk _ _ _ (by omega) hw)
      cancel

theorem isSorted_ref {comp : V → V → Bool} :
    RefC (A ∗ S) (IAlgo.isSorted first last comp) (Algo.isSorted r.ref i j comp) (fun p q => q = p) (fun _ _ => A ∗ S) := by
  intro β γ K' K c Ψ F Q hw hk
  have hc := cate_ge r.kind
  inz first hf0
  inz last hl0
  unfold Algo.isSorted at hw
  unfold IAlgo.isSorted
  simp only [hf0, hl0, or_self, ↓reduceIte, bind_assoc, pure_bind] at hw ⊢
  istep
  istep
  istep
  intro f _
  istep
  intro l _
  refine (isSortedUntil_ref (A := It r f i ∗ It r l j) hr hij hj (by at_it) (by at_it) OutOk.loc0 (OutIn.loc0 (by at_it)) rfl).use hw (by cancel) fun k u c1 hf hw => ?_
  isteps
  refine Triple.pre ?_ (hk _ _ _ ?_ hw)
  · cancel
  · by_cases e : k = j <;> simp [e]
end

/-! ## partial_sort_copy -/

theorem pscCopyLoop_ref (hr : r.Ok True Z S) (hr2 : r2.Ok True Z S) {t m : Nat} (hij : i ≤ j) (hj : j ≤ r.len) (hab : a ≤ b) (hb : b ≤ r2.len) :
    RefC (It r l j ∗ It r2 m b ∗ It r t i ∗ It r2 d a ∗ S) (pscCopyLoop l m t d n) (Algo.pscCopyLoop r.slots r2.slots j b n i a)
      (fun p q => q = p.1 ∧ i ≤ p.2.1 ∧ p.2.1 ≤ j ∧ a ≤ p.2.2 ∧ p.2.2 ≤ b ∧ (i < j ∧ a < b → a < p.2.2)) (fun p _ => It r l j ∗ It r2 m b ∗ It r t p.2.1 ∗ It r2 d p.2.2 ∗ S) := by
  induction hN : j - i generalizing i a n with
  | zero =>
    obtain rfl : i = j := by omega
    intro β γ K' K c Ψ F Q hw hk
    rw [Algo.pscCopyLoop] at hw
    rw [pscCopyLoop]
    simp only [ne_eq, not_true_eq_false, false_and, ↓reduceIte, pure_bind, bind_assoc] at hw ⊢
    istep
    simp only [ne_eq, not_true_eq_false, decide_false, Bool.false_eq_true, ↓reduceIte, pure_bind]
    refine Triple.pre ?_ (hk _ _ _ ⟨rfl, Nat.le_refl _, Nat.le_refl _, Nat.le_refl _, hab, fun h => absurd h.1 (Nat.lt_irrefl _)⟩ hw)
    cancel
  | succ N ih =>
    have h1 : i ≠ j := by omega
    intro β γ K' K c Ψ F Q hw hk
    rw [Algo.pscCopyLoop] at hw
    rw [pscCopyLoop]
    simp only [bind_assoc]
    istep
    simp only [ne_eq, h1, not_false_eq_true, decide_true, ↓reduceIte, true_and, bind_assoc] at hw ⊢
    istep
    by_cases h2 : a = b
    · simp only [h2, ne_eq, not_true_eq_false, decide_false, Bool.false_eq_true, ↓reduceIte, pure_bind] at hw ⊢
      refine Triple.pre ?_ (hk _ _ _ ⟨rfl, Nat.le_refl _, by dsimp only; omega, by dsimp only; omega, Nat.le_refl _, fun h => absurd h2 (by omega)⟩ hw)
      cancel
    · simp only [ne_eq, h2, not_false_eq_true, decide_true, ↓reduceIte, bind_assoc] at hw ⊢
      refine room_asg2 hw (by cancel) fun _ _ hw => ?_
      istep
      intro c1 hw
      istep
      istep
      refine (ih (i := i + 1) (a := a + 1) (n := n + 1) (by omega) (by omega) (by omega)).use hw (by cancel) fun p _ c1 hf hw => ?_
      exact hk _ _ _ ⟨hf.1, by omega, hf.2.2.1, by omega, hf.2.2.2.2.1, fun _ => by omega⟩ hw

theorem pscLoop_ref (hr : r.Ok True Z S) (hr2 : r2.Ok True Z S) (hb2 : r2.kind.bidir) (hc2 : r2.kind.cate = 4) (hn2 : r2.Real S) (hm2 : r2.kind.type < 7) {comp : V → V → Bool} {t p : Nat} (hij : i ≤ j) (hj : j ≤ r.len)
    (hab : a < b) (hb : b ≤ r2.len) :
    RefC (It r l j ∗ It r2 f a ∗ It r2 d b ∗ It r2 p (b - 1) ∗ It r t i ∗ S) (pscLoop Z comp l f d p t) (Algo.pscLoop r.slots r2.slots comp j a b i)
      (fun _ _ => True) (fun _ _ => It r l j ∗ It r2 f a ∗ It r2 d b ∗ It r2 p (b - 1) ∗ It r t j ∗ S) := by
  induction hN : j - i generalizing i with
  | zero =>
    obtain rfl : i = j := by omega
    lzero Algo.pscLoop pscLoop
    refine Triple.pre ?_ (hk _ _ _ trivial hw)
    cancel
  | succ N ih =>
    have h1 : i ≠ j := by omega
    lsucc Algo.pscLoop pscLoop h1
    refine room_cmp hw (by cancel) fun _ _ hw => ?_
    istep
    intro bb c1 hw
    cases bb
    · simp only [Bool.false_eq_true, ↓reduceIte, pure_bind] at hw ⊢
      istep
      exact (ih (i := i + 1) (by omega) (by omega)).use hw (by cancel) hk
    · simp only [↓reduceIte, bind_assoc] at hw ⊢
      refine (popHeap_ref (A := It r2 f a ∗ It r2 d b) hr2 (by omega) (by omega) (by at_it) (by at_it) hb2 hc2 hn2 hm2).use hw (by cancel) fun _ _ c1 _ hw => ?_
      refine room_asg2 hw (by cancel) fun _ _ hw => ?_
      istep
      intro c1 hw
      refine (pushHeap_ref (A := It r2 f a ∗ It r2 d b) hr2 (by omega) (by omega) (by at_it) (by at_it) hb2 hc2).use hw (by cancel) fun _ _ c1 _ hw => ?_
      istep
      exact (ih (i := i + 1) (by omega) (by omega)).use hw (by cancel) hk

theorem partialSortCopy_ref (hr : r.Ok True Z S) (hr2 : r2.Ok True Z S) (hij : i ≤ j) (hj : j ≤ r.len) (hab : a ≤ b) (hb : b ≤ r2.len) (h1 : At A r first i) (h2 : At A r last j) (h3 : At A r2 dFirst a) (h4 : At A r2 dLast b)
    (hb2 : r2.kind.bidir) (hc2 : r2.kind.cate = 4) (hfar : r2.Far S) (hn2 : r2.Real S) (hm2 : r2.kind.type < 7) (hO : OutOk r2 o A B) (hI : OutIn r2 o A B dFirst a) (hE : OutEx r2 o A) {comp : V → V → Bool} :
    RefC (A ∗ S) (IAlgo.partialSortCopy Z first last dFirst dLast o comp) (Algo.partialSortCopy r.slots i j r2.slots a b comp) (fun p q => q.1 = p.1 ∧ a ≤ p.2 ∧ p.2 ≤ b) (fun p q => B p.2 q.2 ∗ S) := by
  intro β γ K' K c Ψ F Q hw hk
  have hcr := cate_ge r.kind
  inz first hf0
  inz last hl0
  inz dFirst hd0
  inz dLast he0
  unfold Algo.partialSortCopy at hw
  unfold IAlgo.partialSortCopy
  simp only [hf0, hl0, hd0, he0, or_self, ↓reduceIte, bind_assoc]
  isteps
  refine hE hc2 (by cancel) ?_
  istep
  istep
  by_cases e : i = j
  · simp only [e, true_or, decide_true, ↓reduceIte, pure_bind, bind_assoc] at hw ⊢
    refine hI (by cancel) fun o => ?_
    refine Triple.pre ?_ (hk (0, a) (0, o) _ ⟨rfl, Nat.le_refl _, hab⟩ hw)
    cancel
  simp only [e, decide_false, Bool.false_eq_true, false_or, ↓reduceIte, bind_assoc] at hw ⊢
  istep
  by_cases e' : a = b
  · simp only [e', decide_true, ↓reduceIte, pure_bind, bind_assoc] at hw ⊢
    refine hI (by cancel) fun o => ?_
    refine Triple.pre ?_ (hk (0, b) (0, o) _ ⟨rfl, hab, Nat.le_refl _⟩ hw)
    subst e'
    cancel
  simp only [e', decide_false, Bool.false_eq_true, ↓reduceIte, bind_assoc] at hw ⊢
  istep
  intro f _
  istep
  intro l _
  istep
  intro df _
  istep
  intro dl _
  istep
  intro t _
  istep
  intro d _
  refine (pscCopyLoop_ref hr hr2 (l := l) (m := dl) (t := t) (d := d) (n := 0) (i := i) (j := j) (a := a) (b := b) hij hj hab hb).use hw (by cancel) fun p q c1 hf hw => ?_
  obtain ⟨e1, e2, e3, e4, e5, e6⟩ := hf
  have e6 := e6 (by omega)
  refine copyMove_at (k := p.2.2 - 1) (x := d) (by at_it) hr2 (by cancel) (by omega) (by omega) (by omega) (.inr hb2) fun dp _ => ?_
  refine (makeHeap_ref (A := It r2 df a ∗ It r2 d p.2.2) hr2 (by omega) (by omega) (by at_it) (by at_it) hfar hn2 hm2 hc2).use hw (by cancel) fun _ _ c1 _ hw => ?_
  refine (pscLoop_ref hr hr2 hb2 hc2 hn2 hm2 (l := l) (f := df) (d := d) (p := dp) (t := t) (i := p.2.1) (j := j) (a := a) (b := p.2.2) e3 hj e6 (by omega)).use hw (by cancel) fun _ _ c1 _ hw => ?_
  refine (sortHeap_ref (A := It r2 df a ∗ It r2 d p.2.2) hr2 (by omega) (by omega) (by at_it) (by at_it) hb2 hc2 hn2 hm2).use hw (by cancel) fun _ _ c1 _ hw => ?_
  refine hO.set (by cancel) (i := p.2.2) (by at_it) fun o => ?_
  isteps
  simp only [pure_bind] at hw ⊢
  refine Triple.pre ?_ (hk (p.1, p.2.2) (q, o) _ ⟨e1, e4, e5⟩ hw)
  cancel

end CC.IAlgo
