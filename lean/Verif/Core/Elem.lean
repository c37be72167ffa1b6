import Verif.Core.Err
import Verif.Core.Ty
/-!
# Arrays of elements with arbitrary element callbacks

Vector and deque store elements side by side in one block and relocate them with `memcpy` / `memmove`.  Here the callbacks of the element type
are arbitrary *programs* (they may allocate, free, follow pointers), so that relocating or destroying an element's bytes and owning its
resources are different things.
-/
namespace CC
open CC.Tac

/-- The element callbacks `create`, `copy`, `destroy` of a `c_type_info_t` (include/c_def.h:60-90) as programs on element slots. -/
structure Ops (V : Type) where
  create : Loc → M V Unit            -- construct a default value at the location
  copy : Loc → Loc → M V Unit        -- `copy dst src`: construct at `dst` a copy of the object at `src`
  destroy : Loc → M V Unit           -- destroy the object at the location

/-! ## memcpy and memmove, slot by slot -/

section Programs
variable {V : Type}

/-- read `n` consecutive slots -/
def loadN : Loc → Nat → M V (List (Val V))
  | _, 0 => pure []
  | l, n+1 => do
    let x ← load l
    let xs ← loadN (l.1, l.2 + 1) n
    pure (x :: xs)

/-- write consecutive slots -/
def storeN : Loc → List (Val V) → M V Unit
  | _, [] => pure ()
  | l, x :: xs => do
    store l x
    storeN (l.1, l.2 + 1) xs

/-- `memmove(dst, src, n)`: the regions may overlap -/
def memmove (dst src : Loc) (n : Nat) : M V Unit := do
  let xs ← loadN src n
  storeN dst xs

/-- `memcpy(dst, src, n)`: overlapping regions are undefined behaviour -/
def memcpy (dst src : Loc) (n : Nat) : M V Unit :=
  if dst.1 = src.1 ∧ 0 < n ∧ dst.2 < src.2 + n ∧ src.2 < dst.2 + n then ub
  else memmove dst src n

/-- the difference of two pointers into the same block, in elements; other subtractions are undefined behaviour
(simplification: so are negative results, which the C code never computes) -/
def psub (p q : Loc) : M V Nat :=
  if p.1 = q.1 ∧ q.2 ≤ p.2 then pure (p.2 - q.2) else ub

/-- pointer plus `n` elements -/
def padd (p : Loc) (n : Nat) : Loc := (p.1, p.2 + n)

/-- pointer minus `n` elements (undefined behaviour below the block) -/
def pminus (p : Loc) (n : Nat) : M V Loc :=
  if n < p.2 then pure (p.1, p.2 - n) else ub

/-- `p >= q` for pointers; pointers into different blocks never compare -/
def pge (p q : Loc) : Bool := p.1 == q.1 && decide (q.2 ≤ p.2)

end Programs

/-! ## What callbacks must satisfy -/

/-- A proper element type with values in `W`: `own x w` describes the resources an object whose slot contains the bits `x` and whose value is `w`
owns.  `create` and `copy` produce a fresh object with its own resources; `destroy` releases them.  In particular an object's
resources cannot be released twice or forgotten. -/
structure ElemSpec {V : Type} (nf : Prop) (o : Ops V) (W : Type) where
  own : Val V → W → HProp V
  dflt : W
  create_spec : ∀ l x, Triple nf (pts l x) (o.create l) (fun _ => ∃ₛ y, pts l y ∗ own y dflt)
  copy_spec : ∀ d s x y w, Triple nf (pts s x ∗ own x w ∗ pts d y) (o.copy d s)
    (fun _ => ∃ₛ z, pts s x ∗ own x w ∗ pts d z ∗ own z w)
  destroy_spec : ∀ l x w, Triple nf (pts l x ∗ own x w) (o.destroy l) (fun _ => ∃ₛ y, pts l y)

variable {V W α β : Type} {nf : Prop} {o : Ops V}

/-- Plain data: objects own nothing besides their bits (`int`, `double`, structs of these …), so a bitwise copy is as good as the original
and destroying one of the two does not harm the other. -/
def ElemSpec.Plain (e : ElemSpec nf o W) : Prop := ∀ x w, ∃ p : Prop, e.own x w = ⌜p⌝

theorem ElemSpec.Plain.dup {e : ElemSpec nf o W} (h : e.Plain) (x : Val V) (w : W) : e.own x w ⊢ₛ (e.own x w ∗ e.own x w) := by
  obtain ⟨p, hp⟩ := h x w
  rw [hp, ← hpure_and, and_self]
  exact ent_refl _

theorem ElemSpec.Plain.drop {e : ElemSpec nf o W} (h : e.Plain) (x : Val V) (w : W) : e.own x w ⊢ₛ emp := by
  obtain ⟨p, hp⟩ := h x w
  rw [hp, ← sep_emp (⌜p⌝ : HProp V)]
  exact ent_pure_left fun _ => ent_refl _

/-- a constructed element with value `w` at location `l` -/
def cell (e : ElemSpec nf o W) (l : Loc) (w : W) : HProp V := ∃ₛ x, pts l x ∗ e.own x w

/-- consecutive constructed elements -/
def live (e : ElemSpec nf o W) (b : Addr) : Nat → List W → HProp V
  | _, [] => emp
  | i, w :: ws => cell e (b, i) w ∗ live e b (i+1) ws

/-- `n` consecutive slots without constructed elements (any bits) -/
def raws (b : Addr) : Nat → Nat → HProp V
  | _, 0 => emp
  | i, n+1 => (∃ₛ x, pts (b, i) x) ∗ raws b (i+1) n

/-- the resources of a list of elements -/
def owns (e : ElemSpec nf o W) : List (Val V) → List W → HProp V
  | [], [] => emp
  | x :: xs, w :: ws => e.own x w ∗ owns e xs ws
  | _, _ => ⌜False⌝

theorem false_left {P Q : HProp V} : (⌜False⌝ ∗ P) ⊢ₛ Q := ent_pure_left fun h => h.elim

theorem ent_antisymm {P Q : HProp V} (h1 : P ⊢ₛ Q) (h2 : Q ⊢ₛ P) : P = Q := funext fun h => propext ⟨h1 h, h2 h⟩

theorem owns_length {e : ElemSpec nf o W} {xs : List (Val V)} {ws : List W} {h : Heap V} (hh : owns e xs ws h) :
    xs.length = ws.length := by
  induction xs generalizing ws h with
  | nil => cases ws with
    | nil => rfl
    | cons => exact hh.1.elim
  | cons x xs ih => cases ws with
    | nil => exact hh.1.elim
    | cons w ws =>
      obtain ⟨_, _, _, _, _, h2⟩ := hh
      simp [ih h2]

theorem live_append {e : ElemSpec nf o W} {b i : Nat} {xs ys : List W} :
    live e b i (xs ++ ys) = (live e b i xs ∗ live e b (i + xs.length) ys) := by
  induction xs generalizing i with
  | nil => simp [live]
  | cons x xs ih =>
    simp only [List.cons_append, live, ih, sep_assoc, List.length_cons]
    rw [Nat.add_right_comm, ← Nat.add_assoc]

theorem raws_append {b i m n : Nat} : raws (V := V) b i (m + n) = (raws b i m ∗ raws b (i + m) n) := by
  induction m generalizing i with
  | zero => simp [raws]
  | succ m ih =>
    rw [Nat.add_right_comm m 1 n]
    simp only [raws, ih, sep_assoc]
    rw [Nat.add_right_comm, ← Nat.add_assoc]

theorem live_to_arr {e : ElemSpec nf o W} {b i : Nat} {ws : List W} :
    live e b i ws ⊢ₛ ∃ₛ xs, ⌜xs.length = ws.length⌝ ∗ arr b i xs ∗ owns e xs ws := by
  induction ws generalizing i with
  | nil => apply ent_ex_right []; simp only [live, arr, owns]; cancel
  | cons w ws ih =>
    simp only [live, cell]
    refine ent_trans (sep_mono (ent_refl _) ih) ?_
    xintro x xs h
    xexists x :: xs
    simp only [arr, owns]
    cancel
    simp [h]

theorem arr_to_live {e : ElemSpec nf o W} {b i : Nat} {xs : List (Val V)} {ws : List W} :
    (arr b i xs ∗ owns e xs ws) ⊢ₛ live e b i ws := by
  induction xs generalizing i ws with
  | nil => cases ws with
    | nil => simp only [arr, owns, live]; cancel
    | cons w ws => simp only [arr, owns]; rw [sep_comm]; exact false_left
  | cons x xs ih => cases ws with
    | nil => simp only [arr, owns]; rw [sep_comm]; exact false_left
    | cons w ws =>
      simp only [arr, owns, live, cell]
      xexists x
      cancel_core
      exact ih

theorem raws_to_arr {b i n : Nat} : raws (V := V) b i n ⊢ₛ ∃ₛ xs, ⌜xs.length = n⌝ ∗ arr b i xs := by
  induction n generalizing i with
  | zero => apply ent_ex_right []; simp only [raws, arr]; cancel
  | succ n ih =>
    simp only [raws]
    refine ent_trans (sep_mono (ent_refl _) ih) ?_
    xintro x xs h
    xexists x :: xs
    simp only [arr]
    cancel
    simp [h]

theorem arr_to_raws {b i : Nat} {xs : List (Val V)} : arr b i xs ⊢ₛ raws b i xs.length := by
  induction xs generalizing i with
  | nil => simp only [raws, arr, List.length_nil]; exact ent_refl _
  | cons x xs ih =>
    simp only [arr, raws, List.length_cons]
    xexists x
    cancel_core
    exact ih

theorem arr_to_raws' {b i n : Nat} {xs : List (Val V)} (h : xs.length = n) : arr b i xs ⊢ₛ raws b i n := by
  subst h; exact arr_to_raws

/-! ## Specifications of memcpy / memmove -/

theorem loadN_spec {b i : Nat} {xs : List (Val V)} :
    Triple nf (arr b i xs) (loadN (b, i) xs.length) (fun r => ⌜r = xs⌝ ∗ arr b i xs) := by
  induction xs generalizing i with
  | nil => simp only [loadN, List.length_nil]; apply Triple.ret; cancel
  | cons x xs ih =>
    simp only [loadN, List.length_cons, arr]
    step
    call (ih (i := i+1))
    intro r
    xsub
    apply Triple.ret
    cancel

theorem storeN_spec {b i : Nat} {xs ys : List (Val V)} (h : ys.length = xs.length) :
    Triple nf (arr b i xs) (storeN (b, i) ys) (fun _ => arr b i ys) := by
  induction ys generalizing i xs with
  | nil =>
    cases xs with
    | nil => simp only [storeN]; apply Triple.ret; cancel
    | cons x xs => simp at h
  | cons y ys ih =>
    cases xs with
    | nil => simp at h
    | cons x xs =>
      simp only [storeN, arr]
      step
      call (ih (i := i+1) (xs := xs) (by simpa using h))
      intro r
      cancel

/-- what a move does to an array: overlapping regions are fine -/
theorem memmove_arr {b i k : Nat} {xs ys zs : List (Val V)} (h : (ys ++ zs).length = (xs ++ ys).length)
    (hk : k = i + xs.length) :
    Triple nf (arr b i (xs ++ ys)) (memmove (b, i) (b, k) ys.length)
      (fun _ => ∃ₛ zs', ⌜zs'.length = zs.length⌝ ∗ arr b i (ys ++ zs')) := by
  subst hk
  unfold memmove
  rw [arr_append]
  call (loadN_spec (b := b) (i := i + xs.length) (xs := ys))
  intro r
  xsub
  have e : (arr b i xs ∗ arr b (i + xs.length) ys) = arr b i (xs ++ ys) := arr_append.symm
  rw [sep_comm, e]
  have hl : (xs ++ ys) = (xs ++ ys).take ys.length ++ (xs ++ ys).drop ys.length := (List.take_append_drop _ _).symm
  rw [hl, arr_append]
  have hlen : ((xs ++ ys).take ys.length).length = ys.length := by simp
  rw [hlen]
  call (storeN_spec (b := b) (i := i) (xs := (xs ++ ys).take ys.length) (ys := ys) (by simp))
  intro _
  xexists (xs ++ ys).drop ys.length
  rw [arr_append]
  cancel
  simp at h ⊢
  omega

/-- moving up -/
theorem memmove_up_arr {b i k : Nat} {ys zs : List (Val V)} (hk : k = i + zs.length) :
    Triple nf (arr b i (ys ++ zs)) (memmove (b, k) (b, i) ys.length)
      (fun _ => ∃ₛ zs', ⌜zs'.length = zs.length⌝ ∗ arr b i (zs' ++ ys)) := by
  subst hk
  unfold memmove
  rw [arr_append]
  call (loadN_spec (b := b) (i := i) (xs := ys))
  intro r
  xsub
  rw [← arr_append]
  have hl : (ys ++ zs) = (ys ++ zs).take zs.length ++ (ys ++ zs).drop zs.length := (List.take_append_drop _ _).symm
  rw [hl, arr_append]
  have hlen : ((ys ++ zs).take zs.length).length = zs.length := by simp
  rw [hlen]
  call (storeN_spec (b := b) (i := i + zs.length) (xs := (ys ++ zs).drop zs.length) (ys := ys) (by simp))
  intro _
  xexists (ys ++ zs).take zs.length
  rw [arr_append, hlen]
  cancel

/-- relocation upwards by `k` slots: the elements move, the `k` slots behind them become the gap in front of them -/
theorem memmove_up {e : ElemSpec nf o W} {b i j k n : Nat} {ws : List W} (hn : n = ws.length) (hj : j = i + k) :
    Triple nf (live e b i ws ∗ raws b (i + n) k) (memmove (b, j) (b, i) n)
      (fun _ => raws b i k ∗ live e b j ws) := by
  subst hn hj
  refine Triple.pre (sep_mono live_to_arr raws_to_arr) ?_
  xintro xs hx zs hz
  rw [← hx, ← hz]
  refine Triple.pre (P' := arr b i (xs ++ zs) ∗ owns e xs ws) ?_ ?_
  · rw [arr_append]; cancel
  call (memmove_up_arr (b := b) (i := i) (ys := xs) (zs := zs) rfl)
  intro _
  xintro zs' hz'
  rw [arr_append, hz']
  refine ent_trans ?_ (sep_mono (arr_to_raws' hz') (arr_to_live (xs := xs)))
  cancel

/-- relocation downwards by `k` slots: the `k` slots in front of the elements become free slots behind them -/
theorem memmove_down {e : ElemSpec nf o W} {b i j k n : Nat} {ws : List W} (hn : n = ws.length) (hj : j = i + k) :
    Triple nf (raws b i k ∗ live e b j ws) (memmove (b, i) (b, j) n)
      (fun _ => live e b i ws ∗ raws b (i + n) k) := by
  subst hn hj
  refine Triple.pre (sep_mono raws_to_arr live_to_arr) ?_
  xintro zs hz xs hx
  rw [← hx, ← hz]
  refine Triple.pre (P' := arr b i (zs ++ xs) ∗ owns e xs ws) ?_ ?_
  · rw [arr_append]; cancel
  call (memmove_arr (b := b) (i := i) (xs := zs) (ys := xs) (zs := zs) (by simp; omega) rfl)
  intro _
  xintro zs' hz'
  rw [arr_append]
  refine ent_trans ?_ (sep_mono (arr_to_live (xs := xs)) (arr_to_raws' hz'))
  cancel

/-- separate regions do not overlap -/
theorem arr_no_overlap {b i c j : Nat} {xs ys : List (Val V)} {h : Heap V} (hh : (arr b i xs ∗ arr c j ys) h) :
    ¬ (c = b ∧ 0 < xs.length ∧ 0 < ys.length ∧ j < i + xs.length ∧ i < j + ys.length) := by
  rintro ⟨rfl, h01, h02, h1, h2⟩
  have split : ∀ {i k : Nat} {xs : List (Val V)}, i ≤ k → k < i + xs.length → ∃ x R, arr c i xs = (pts (c, k) x ∗ R) := by
    intro i k xs hi hk
    obtain ⟨X, x, Y, rfl, rfl⟩ : ∃ X x Y, xs = X ++ x :: Y ∧ k = i + X.length :=
      ⟨xs.take (k - i), xs[k - i], xs.drop (k - i + 1), by simp, by simp; omega⟩
    refine ⟨x, arr c i X ∗ arr c (i + X.length + 1) Y, ?_⟩
    rw [arr_append, arr, sep_left_comm]
  have key : ∀ k, i ≤ k → k < i + xs.length → j ≤ k → k < j + ys.length → False := by
    intro k a1 a2 a3 a4
    obtain ⟨x, R, e1⟩ := split a1 a2
    obtain ⟨y, R', e2⟩ := split a3 a4
    rw [e1, e2] at hh
    exact loc_ne_of (l₁ := (c, k)) (l₂ := (c, k)) hh (by cancel) rfl
  rcases Nat.le_total i j with h | h
  · exact key j h h1 (Nat.le_refl _) (by omega)
  · exact key i (Nat.le_refl _) (by omega) h h2

/-- bytes copied to a separate region -/
theorem memcpy_arr {b i c j n : Nat} {xs ys : List (Val V)} (hn : n = xs.length) (hl : ys.length = xs.length) :
    Triple nf (arr b i xs ∗ arr c j ys) (memcpy (c, j) (b, i) n) (fun _ => arr b i xs ∗ arr c j xs) := by
  subst hn
  apply Triple.fact (p := ¬ (c = b ∧ 0 < xs.length ∧ 0 < ys.length ∧ j < i + xs.length ∧ i < j + ys.length))
  · intro h hh
    exact arr_no_overlap hh
  intro hov
  unfold memcpy
  rw [if_neg (by rintro ⟨h1, h2, h3, h4⟩; exact hov ⟨h1, h2, by omega, h3, by omega⟩)]
  unfold memmove
  call (loadN_spec (b := b) (i := i) (xs := xs))
  intro r
  xsub
  call (storeN_spec (b := c) (i := j) (xs := ys) (ys := xs) hl.symm)
  intro _
  cancel

theorem owns_dup {e : ElemSpec nf o W} (hp : e.Plain) {xs : List (Val V)} {ws : List W} :
    owns e xs ws ⊢ₛ (owns e xs ws ∗ owns e xs ws) := by
  induction xs generalizing ws with
  | nil => cases ws with
    | nil => simp only [owns]; cancel
    | cons => simp only [owns]; rw [← sep_emp (⌜False⌝ : HProp V)]; exact false_left
  | cons x xs ih => cases ws with
    | nil => simp only [owns]; rw [← sep_emp (⌜False⌝ : HProp V)]; exact false_left
    | cons w ws =>
      simp only [owns]
      refine ent_trans (sep_mono (hp.dup x w) (ih (ws := ws))) ?_
      cancel

/-- copying the bytes of plain elements copies the elements -/
theorem memcpy_plain {e : ElemSpec nf o W} {b i c j n : Nat} {ws : List W} (hn : n = ws.length)
    (hp : e.Plain ∨ ws = []) :
    Triple nf (live e b i ws ∗ raws c j n) (memcpy (c, j) (b, i) n) (fun _ => live e b i ws ∗ live e c j ws) := by
  refine Triple.pre (sep_mono live_to_arr raws_to_arr) ?_
  xintro xs hx ys hy
  call (memcpy_arr (b := b) (i := i) (c := c) (j := j) (n := n) (xs := xs) (ys := ys) (by omega) (by omega))
  intro _
  refine ent_trans (Q := owns e xs ws ∗ arr b i xs ∗ arr c j xs) (by cancel) ?_
  have hd : owns e xs ws ⊢ₛ (owns e xs ws ∗ owns e xs ws) := by
    rcases hp with hp | rfl
    · exact owns_dup hp
    · cases xs with
      | nil => simp only [owns]; cancel
      | cons => simp at hx
  refine ent_trans (sep_mono hd (ent_refl _)) ?_
  refine ent_trans ?_ (sep_mono (arr_to_live (xs := xs)) (arr_to_live (xs := xs)))
  cancel

/-- plain elements may be overwritten without being destroyed -/
theorem live_drop {e : ElemSpec nf o W} (hp : e.Plain) {b i : Nat} {ws : List W} : live e b i ws ⊢ₛ raws b i ws.length := by
  induction ws generalizing i with
  | nil => exact ent_refl _
  | cons w ws ih =>
    simp only [live, raws, cell, List.length_cons]
    refine sep_mono (ent_ex_left fun x => ent_ex_right x ?_) ih
    refine ent_trans (sep_mono (ent_refl _) (hp.drop x w)) ?_
    rw [sep_emp]
    exact ent_refl _

/-- a freshly allocated block -/
theorem mallocO_spec {n : Nat} {P : HProp V} {Q : β → HProp V} {k : Addr → M V β} (hfail : ¬ nf → Triple nf P (k 0) Q)
    (hok : ∀ a, a ≠ 0 → Triple nf (blk a n ∗ raws a 1 n ∗ P) (k a) Q) :
    Triple nf P (mallocO n >>= k) Q :=
  Triple.mallocG_spec hfail fun a j h => by
    refine Triple.pre ?_ (hok a h)
    refine ent_cancel (sep_mono (arr_to_raws' ?_) (ent_refl _))
    simp

theorem freeBlock_spec {a n : Nat} : Triple (V := V) nf (blk a n ∗ raws a 1 n) (free a) (fun _ => emp) := by
  refine Triple.pre (sep_mono (ent_refl _) raws_to_arr) ?_
  xintro xs hx
  rw [← bind_pure (free a)]
  have := Triple.free_spec (nf := nf) (P := emp) (Q := fun _ => emp) (n := n) (a := a) (vs := xs)
    (k := fun _ => (pure () : M V Unit)) hx (Triple.ret (ent_refl _))
  rw [sep_emp, sep_comm] at this
  exact this

theorem raws_zero {b i : Nat} : raws (V := V) b i 0 = emp := rfl
theorem live_nil {e : ElemSpec nf o W} {b i : Nat} : live e b i [] = emp := rfl
theorem live_cons {e : ElemSpec nf o W} {b i : Nat} {w : W} {ws : List W} :
    live e b i (w :: ws) = (cell e (b, i) w ∗ live e b (i+1) ws) := rfl
theorem raws_succ {b i n : Nat} : raws (V := V) b i (n+1) = ((∃ₛ x, pts (b, i) x) ∗ raws b (i+1) n) := rfl

theorem destroyCell_spec {e : ElemSpec nf o W} {l : Loc} {w : W} :
    Triple nf (cell e l w) (o.destroy l) (fun _ => ∃ₛ y, pts l y) := by
  unfold cell
  xintro x
  rw [sep_emp]
  exact e.destroy_spec l x w

theorem copyCell_spec {e : ElemSpec nf o W} {l s : Loc} {w : W} :
    Triple nf (cell e s w ∗ ∃ₛ y, pts l y) (o.copy l s) (fun _ => cell e s w ∗ cell e l w) := by
  unfold cell
  xintro x y
  call (e.copy_spec l s x y w)
  intro _
  xintro z
  xexists x
  xexists z
  cancel

theorem createCell_spec {e : ElemSpec nf o W} {l : Loc} :
    Triple nf (∃ₛ y, pts l y) (o.create l) (fun _ => cell e l e.dflt) := by
  xintro y
  rw [sep_emp]
  refine Triple.post (e.create_spec l y) ?_
  intro _
  exact ent_refl _

/-! ## Two element types -/

/-- Plain data of type `V`: the slot holds the value itself; reading requires a constructed value, and so does `destroy`
(which leaves the slot raw). -/
def plainOps (ty : Ty V) : Ops V where
  create l := do
    let _ ← load l
    store l (.obj (some ty.dflt))
  copy d s := do
    let v ← ldV s
    let _ ← load d
    store d (.obj (some v))
  destroy l := destroyV l

/-- plain data is a proper element type -/
def plainSpec (ty : Ty V) : ElemSpec nf (plainOps ty) V where
  own x w := ⌜x = .obj (some w)⌝
  dflt := ty.dflt
  create_spec l x := by
    unfold plainOps
    dsimp only
    steps
    apply Triple.ret
    xexists .obj (some ty.dflt)
    cancel
  copy_spec d s x y w := by
    unfold plainOps
    dsimp only
    xintro h
    subst h
    steps
    apply Triple.ret
    xexists .obj (some w)
    cancel
  destroy_spec l x w := by
    unfold plainOps
    dsimp only
    xintro h
    subst h
    steps
    apply Triple.ret
    xexists .obj none
    cancel

theorem plain_plain (ty : Ty V) : (plainSpec (nf := nf) ty).Plain := by
  exact fun x w => ⟨_, rfl⟩

/-- An element type that owns memory (like a string): the slot holds a pointer to a heap box with the value; `copy` allocates a box of its
own, `destroy` releases it. -/
def boxOps (ty : Ty V) : Ops V where
  create l := do
    let p ← mallocO 1
    if p = 0 then ub else do
    construct (p, 1) ty.dflt
    stN l p
  copy d s := do
    let q ← ldN s
    let v ← ldV (q, 1)
    let p ← mallocO 1
    if p = 0 then ub else do
    construct (p, 1) v
    stN d p
  destroy l := do
    let p ← ldN l
    destroyV (p, 1)
    free p

/-- the boxed type is a proper element type as long as the allocator does not fail -/
def boxSpec (ty : Ty V) : ElemSpec True (boxOps ty) V where
  own x w := ∃ₛ p, ⌜x = .num p⌝ ∗ blk p 1 ∗ pts (p, 1) (.obj (some w))
  dflt := ty.dflt
  create_spec l x := by
    unfold boxOps
    dsimp only
    apply mallocO1
    · intro h; exact absurd trivial h
    intro p hp
    rw [if_neg hp]
    steps
    apply Triple.ret
    xexists .num p
    xexists p
    cancel
  copy_spec d s x y w := by
    unfold boxOps
    dsimp only
    xintro q h
    subst h
    steps
    apply mallocO1
    · intro h; exact absurd trivial h
    intro p hp
    rw [if_neg hp]
    steps
    apply Triple.ret
    xexists .num p
    xexists q
    xexists p
    cancel
  destroy_spec l x w := by
    unfold boxOps
    dsimp only
    xintro q h
    subst h
    steps
    call free1
    intro _
    xexists .num q
    cancel

end CC
