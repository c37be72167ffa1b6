import Verif.Own.SimAll
/-!
# Algorithms with temporary objects: transform, push_heap, partial_sort, sort, generate, max, min, clamp
-/
namespace CC.Own
open CC CC.Tac
open CC.Algo (Slots dec threshold lg wr)

section Model
variable {V : Type}

/-- loop of `algo_transform`, c_modifying.c:217-224, with the temporary object `t`; `op` modifies the object it is given -/
def transformLoop (o : AOps V) (c d : Slots) (op : Loc → M V Unit) (t : Addr) (first last dFirst n : Nat) : M V Nat :=
  if first ≠ last then do
    o.assign (t, 1) (c first)
    op (t, 1)
    o.assign (d dFirst) (t, 1)
    transformLoop o c d op t (first + 1) last (dFirst + 1) (n + 1)
  else pure n
partial_fixpoint

/-- `algo_transform`, c_modifying.c:197-232 -/
def transform (o : AOps V) (c : Slots) (first last : Nat) (d : Slots) (dFirst : Nat) (op : Loc → M V Unit) : M V Nat := do
  let t ← mallocO 1
  if t = 0 then ub else do
  o.create (t, 1)
  let n ← transformLoop o c d op t first last dFirst 0
  dropO o t
  pure n

/-- loop of `algo_generate`, c_modifying.c:252-258; `gen k` is the `k`-th call of the generator, which constructs an object in the raw memory it is given -/
def generateLoop (o : AOps V) (c : Slots) (gen : Nat → Loc → M V Unit) (t : Addr) (first last n : Nat) : M V Nat :=
  if first ≠ last then do
    store (t, 1) (.obj none)
    gen n (t, 1)
    o.assign (c first) (t, 1)
    generateLoop o c gen t (first + 1) last (n + 1)
  else pure n
partial_fixpoint

/-- `algo_generate`, c_modifying.c:234-266 -/
def generate (o : AOps V) (c : Slots) (first last : Nat) (gen : Nat → Loc → M V Unit) : M V Nat := do
  let t ← mallocO 1
  if t = 0 then ub else do
  let n ← generateLoop o c gen t first last 0
  dropO o t
  pure n

/-- `algo_max_by`, c_min_max.c:30-43 -/
def maxBy (o : AOps V) (x y : Loc) (comp : Loc → Loc → M V Bool) : M V Addr := do
  let r ← mallocO 1
  if r = 0 then pure 0 else do
  let b ← comp x y
  o.copy (r, 1) (if b then y else x)
  pure r

/-- `algo_min_by`, c_min_max.c:45-58 -/
def minBy (o : AOps V) (x y : Loc) (comp : Loc → Loc → M V Bool) : M V Addr := do
  let r ← mallocO 1
  if r = 0 then pure 0 else do
  let b ← comp x y
  o.copy (r, 1) (if b then x else y)
  pure r

/-- `algo_clamp_by`, c_min_max.c:163-174 -/
def clamp (o : AOps V) (v lo hi : Loc) (comp : Loc → Loc → M V Bool) : M V Addr := do
  cassert (!(← comp hi lo))
  if ← comp v hi then maxBy o v lo comp else minBy o v hi comp

/-- loop of `algo_push_heap_by`, c_heap.c:207-218, with the temporary object `t` -/
def pushLoop (o : AOps V) (c : Slots) (first : Nat) (comp : Loc → Loc → M V Bool) (t : Addr) (hole : Nat) : M V Nat :=
  if 0 < hole then do
    if ← comp (c (first + (hole - 1) / 2)) (t, 1) then do
      o.assign (c (first + hole)) (c (first + (hole - 1) / 2))
      pushLoop o c first comp t ((hole - 1) / 2)
    else pure hole
  else pure hole
partial_fixpoint

/-- `algo_push_heap_by`, c_heap.c:186-227: at the end the memory of the temporary object is freed (`__c_free(__value)`, line 222), but the object is not destroyed -/
def pushHeap (o : AOps V) (c : Slots) (first last : Nat) (comp : Loc → Loc → M V Bool) : M V Unit :=
  if last - first < 2 then pure () else do
  let last ← dec last
  let t ← newO o (c last)
  let hole ← pushLoop o c first comp t (last - first)
  o.assign (c (first + hole)) (t, 1)
  free t

/-- loop of `algo_partial_sort_by`, c_sorting.c:390-397 -/
def partialSortLoop (o : AOps V) (c : Slots) (comp : Loc → Loc → M V Bool) (first middle last it : Nat) : M V Unit :=
  if it ≠ last then do
    if ← comp (c it) (c first) then do
      popHeap o c first middle comp
      swap o (c (middle - 1)) (c it)
      pushHeap o c first middle comp
      partialSortLoop o c comp first middle last (it + 1)
    else partialSortLoop o c comp first middle last (it + 1)
  else pure ()
partial_fixpoint

/-- `algo_partial_sort_by`, c_sorting.c:367-405 -/
def partialSort (o : AOps V) (c : Slots) (first middle last : Nat) (comp : Loc → Loc → M V Bool) : M V Unit :=
  if first = middle then pure () else do
  makeHeap o c first middle comp
  partialSortLoop o c comp first middle last middle
  sortHeap o c first middle comp

/-- second loop of `algo_partial_sort_copy_by`, c_sorting.c:448-455 -/
def pscLoop (o : AOps V) (c d : Slots) (comp : Loc → Loc → M V Bool) (last dFirst dt it : Nat) : M V Unit :=
  if it ≠ last then do
    if ← comp (c it) (d dFirst) then do
      popHeap o d dFirst dt comp
      o.assign (d (dt - 1)) (c it)
      pushHeap o d dFirst dt comp
      pscLoop o c d comp last dFirst dt (it + 1)
    else pscLoop o c d comp last dFirst dt (it + 1)
  else pure ()
partial_fixpoint

/-- `algo_partial_sort_copy_by`, c_sorting.c:407-468; returns the result and `*d_upper` -/
def partialSortCopy (o : AOps V) (c : Slots) (first last : Nat) (d : Slots) (dFirst dLast : Nat) (comp : Loc → Loc → M V Bool) : M V (Nat × Nat) :=
  if first = last ∨ dFirst = dLast then pure (0, dFirst) else do
  let r ← pscCopyLoop o c d last dLast 0 first dFirst
  makeHeap o d dFirst r.2.2 comp
  pscLoop o c d comp last dFirst r.2.2 r.2.1
  sortHeap o d dFirst r.2.2 comp
  pure (r.1, r.2.2)

/-- `__median_of_three_by`, c_sorting.c:41-73: a new object -/
def median (o : AOps V) (x y z : Loc) (comp : Loc → Loc → M V Bool) : M V Addr := do
  let r ← mallocO 1
  if r = 0 then ub else do
  let b ← comp x y
  (if b then do
    if ← comp y z then o.copy (r, 1) y
    else do
      if ← comp x z then o.copy (r, 1) z else o.copy (r, 1) x
  else do
    if ← comp x z then o.copy (r, 1) x
    else do
      if ← comp y z then o.copy (r, 1) z else o.copy (r, 1) y)
  pure r

/-- the first inner loop of `__partition_by`, c_sorting.c:86-88 -/
def upScan (c : Slots) (comp : Loc → Loc → M V Bool) (pivot : Loc) (first : Nat) : M V Nat := do
  if ← comp (c first) pivot then upScan c comp pivot (first + 1) else pure first
partial_fixpoint

/-- the second inner loop of `__partition_by`, c_sorting.c:92-94 -/
def downScan (c : Slots) (comp : Loc → Loc → M V Bool) (pivot : Loc) (last : Nat) : M V Nat := do
  if ← comp pivot (c last) then do
    let last ← dec last
    downScan c comp pivot last
  else pure last
partial_fixpoint

/-- `__partition_by`, c_sorting.c:76-108; returns `*second_first` -/
def hoare (o : AOps V) (c : Slots) (comp : Loc → Loc → M V Bool) (pivot : Loc) (first last : Nat) : M V Nat := do
  let first ← upScan c comp pivot first
  let last ← dec last
  let last ← downScan c comp pivot last
  if first < last then do
    swap o (c first) (c last)
    hoare o c comp pivot (first + 1) last
  else pure first
partial_fixpoint

/-- `__introspective_sort_by`, c_sorting.c:111-159; the next round of the loop is the second recursive call (with `__last = __part`); the pivot is destroyed before that (149-150) -/
def introsort (o : AOps V) (c : Slots) (comp : Loc → Loc → M V Bool) : Nat → Nat → Nat → M V Unit
  | 0, first, last => if last - first > threshold then partialSort o c first last last comp else pure ()
  | depth + 1, first, last =>
    if last - first > threshold then do
      let pivot ← median o (c first) (c (first + (last - first) / 2)) (c (last - 1)) comp
      let part ← hoare o c comp (pivot, 1) first last
      introsort o c comp depth part last
      dropO o pivot
      introsort o c comp depth first part
    else pure ()

/-- loop of `__unguarded_linear_sort_by`, c_sorting.c:174-178; `value` is the argument.  Returns the final `__last`. -/
def ulLoop (o : AOps V) (c : Slots) (value : Loc) (comp : Loc → Loc → M V Bool) (last next : Nat) : M V Nat := do
  if ← comp value (c next) then do
    o.assign (c last) (c next)
    let next' ← dec next
    ulLoop o c value comp next next'
  else pure last
partial_fixpoint

/-- `__unguarded_linear_sort_by`, c_sorting.c:162-185 -/
def unguardedLinear (o : AOps V) (c : Slots) (value : Loc) (comp : Loc → Loc → M V Bool) (last : Nat) : M V Unit := do
  let next ← dec last
  let l ← ulLoop o c value comp last next
  o.assign (c l) value

/-- `__linear_sort_by`, c_sorting.c:188-222 -/
def linearSort (o : AOps V) (c : Slots) (first last : Nat) (comp : Loc → Loc → M V Bool) : M V Unit := do
  let t ← newO o (c last)
  let b ← comp (t, 1) (c first)
  (if b then do
    let _ ← copyBackward o c first last c (last + 1)
    o.assign (c first) (t, 1)
  else unguardedLinear o c (t, 1) comp last)
  dropO o t

/-- loop of `__insertion_sort_by`, c_sorting.c:235-238 -/
def insertionLoop (o : AOps V) (c : Slots) (comp : Loc → Loc → M V Bool) (first it last : Nat) : M V Unit :=
  if it ≠ last then do
    linearSort o c first it comp
    insertionLoop o c comp first (it + 1) last
  else pure ()
partial_fixpoint

/-- `__insertion_sort_by`, c_sorting.c:225-243 -/
def insertionSort (o : AOps V) (c : Slots) (first last : Nat) (comp : Loc → Loc → M V Bool) : M V Unit :=
  if first = last then pure () else insertionLoop o c comp first (first + 1) last

/-- `__unguarded_insertion_sort_by`, c_sorting.c:246-263 -/
def unguardedInsertion (o : AOps V) (c : Slots) (comp : Loc → Loc → M V Bool) (it last : Nat) : M V Unit :=
  if it ≠ last then do
    unguardedLinear o c (c it) comp it
    unguardedInsertion o c comp (it + 1) last
  else pure ()
partial_fixpoint

/-- `__final_insertion_sort_by`, c_sorting.c:266-285 -/
def finalSort (o : AOps V) (c : Slots) (first last : Nat) (comp : Loc → Loc → M V Bool) : M V Unit :=
  if last - first > threshold then do
    insertionSort o c first (first + threshold) comp
    unguardedInsertion o c comp (first + threshold) last
  else insertionSort o c first last comp

/-- `algo_sort_by`, c_sorting.c:348-365 -/
def sort (o : AOps V) (c : Slots) (first last : Nat) (comp : Loc → Loc → M V Bool) : M V Unit :=
  if first = last then pure () else do
  introsort o c comp (lg (last - first) * 2) first last
  finalSort o c first last comp

end Model

variable {V W : Type} {o : AOps V} {e : AElem o W} {F : HProp V} {c d : Slots} {comp : W → W → Bool} {comp2 : Loc → Loc → M V Bool} {first last middle it dFirst dLast dt n hole next depth : Nat} {l value : Loc} {t : Addr} {v w : W}

/-! ## transform -/

/-- a callback that modifies an object computes `op` of its value -/
def Acts (e : AElem o W) (op2 : Loc → M V Unit) (op : W → W) : Prop := ∀ l a, Triple True (obj e l a) (op2 l) (fun _ => obj e l (op a))

/-- assignment of an element to the temporary object -/
theorem S_load : Sim e (tmp e t w ∗ F) (ldV l) (o.assign (t, 1) l) (fun v _ => tmp e t v ∗ F) := by
  intro s' v t' hr
  obtain ⟨h1, h2⟩ := ldV_run hr
  rw [h2]
  refine Triple.pre (P' := (obj e (t, 1) w ∗ obj e l v) ∗ (owned e (hdel s'.cells l) ∗ blk t 1 ∗ F)) ?_ ?_
  · unfold tmp
    refine ent_trans (sep_mono (owned_take h1) (ent_refl _)) (by cancel)
  refine Triple.post (Triple.frame (e.assign_spec (t, 1) l w v)) fun x => ?_
  refine ent_trans (Q := (obj e l v ∗ owned e (hdel s'.cells l)) ∗ (tmp e t v ∗ F)) ?_ (sep_mono (owned_back h1) (ent_refl _))
  unfold tmp
  cancel

theorem S_transformLoop {op : W → W} {op2 : Loc → M V Unit} (ho : Acts e op2 op) :
    SimE e ((∃ₛ w, tmp e t w) ∗ F) (Algo.transformLoop c d op first last dFirst n) (Own.transformLoop o c d op2 t first last dFirst n) := by
  refine Algo.transformLoop.fixpoint_induct c d op last (fun f' => ∀ first dFirst n, SimE e ((∃ₛ w, tmp e t w) ∗ F) (f' first dFirst n) (Own.transformLoop o c d op2 t first last dFirst n)) Sim.adm3 ?_ first dFirst n
  intro f' ih first dFirst n
  rw [Own.transformLoop]
  refine Sim.ite (fun _ => ?_) (fun _ => SimE.pure)
  have : ∀ w, Sim e (tmp e t w ∗ F) (ldV (c first) >>= fun v => wr (d dFirst) (op v) >>= fun _ => f' (first + 1) (dFirst + 1) (n + 1))
      (o.assign (t, 1) (c first) >>= fun _ => op2 (t, 1) >>= fun _ => o.assign (d dFirst) (t, 1) >>= fun _ => Own.transformLoop o c d op2 t (first + 1) last (dFirst + 1) (n + 1))
      (fun a' a => ⌜a = a'⌝ ∗ (∃ₛ w, tmp e t w) ∗ F) := by
    intro w
    refine Sim.bind S_load fun v _ => ?_
    refine Sim.right (P := obj e (t, 1) v) (R := blk t 1 ∗ F) (ho (t, 1) v) (by unfold tmp; cancel) fun _ => ?_
    refine Sim.pre (F' := tmp e t (op v) ∗ F) (by unfold tmp; cancel) ?_
    refine SimE.bind S_wr fun _ => ?_
    refine Sim.pre ?_ (ih (first + 1) (dFirst + 1) (n + 1))
    exact sep_mono (ent_ex_right _ (ent_refl _)) (ent_refl _)
  intro s' a' t' hr
  refine Triple.pre (P' := (∃ₛ w, tmp e t w) ∗ (owned e s'.cells ∗ F)) (by rw [sep_left_comm]; exact ent_refl _) ?_
  refine Triple.ex_left' fun w => ?_
  refine Triple.pre ?_ (this w s' a' t' hr)
  cancel

theorem S_transform {op : W → W} {op2 : Loc → M V Unit} (ho : Acts e op2 op) : SimE e F (Algo.transform c first last d dFirst op) (Own.transform o c first last d dFirst op2) := by
  unfold Algo.transform Own.transform
  intro s' a' t' hr
  apply mallocO1
  · intro h; exact absurd trivial h
  intro t ht
  rw [if_neg ht]
  refine Triple.pre (P' := (∃ₛ y, pts (t, 1) y) ∗ (blk t 1 ∗ owned e s'.cells ∗ F)) ?_ ?_
  · xexists .obj none; cancel
  refine Triple.bind (Triple.frame (createCell_spec (e := e.toElemSpec))) fun _ => ?_
  refine Triple.pre (P' := owned e s'.cells ∗ ((∃ₛ w, tmp e t w) ∗ F)) ?_ ?_
  · refine ent_trans (Q := tmp e t e.dflt ∗ (owned e s'.cells ∗ F)) (by unfold tmp; cancel) ?_
    rw [sep_left_comm]
    exact sep_mono (ent_refl _) (sep_mono (ent_ex_right _ (ent_refl _)) (ent_refl _))
  refine Triple.bind (S_transformLoop ho s' a' t' hr) fun n => ?_
  refine Triple.pre (P' := (∃ₛ w, tmp e t w) ∗ (⌜n = a'⌝ ∗ owned e t'.cells ∗ F)) (by
    refine ent_trans (Q := ⌜n = a'⌝ ∗ (owned e t'.cells ∗ (∃ₛ w, tmp e t w) ∗ F)) (by cancel) ?_
    refine ent_pure_left fun hn => ?_
    rw [sep_left_comm]
    refine sep_mono (ent_refl _) ?_
    exact ent_pure_right hn (ent_refl _)) ?_
  refine Triple.ex_left' fun w => ?_
  refine Triple.bind (Triple.frame drop_spec) fun _ => ?_
  apply Triple.ret
  cancel

/-! ## heaps and partial sorting -/

theorem S_pushLoop (hf : Compares e comp2 comp) : SimE e (tmp e t v ∗ F) (Algo.pushLoop c first comp v hole) (Own.pushLoop o c first comp2 t hole) := by
  refine Algo.pushLoop.fixpoint_induct c first comp v (fun f' => ∀ hole, SimE e (tmp e t v ∗ F) (f' hole) (Own.pushLoop o c first comp2 t hole)) Sim.adm1 ?_ hole
  intro f' ih hole
  rw [Own.pushLoop]
  refine Sim.ite (fun _ => ?_) (fun _ => SimE.pure)
  have h := S_cmpL (e := e) (F := F) (t := t) (v := v) (l := c (first + (hole - 1) / 2)) hf
  have : (ldV (c (first + (hole - 1) / 2)) >>= fun a => if comp a v = true then Algo.asg (c (first + hole)) (c (first + (hole - 1) / 2)) >>= fun _ => f' ((hole - 1) / 2) else pure hole) =
    (Algo.test (fun a => comp a v) (c (first + (hole - 1) / 2)) >>= fun b => if b = true then Algo.asg (c (first + hole)) (c (first + (hole - 1) / 2)) >>= fun _ => f' ((hole - 1) / 2) else pure hole) := by
    unfold Algo.test
    simp only [bind_assoc, pure_bind]
  rw [this]
  refine SimE.bind h fun b => ?_
  refine Sim.ite (fun _ => ?_) (fun _ => SimE.pure)
  exact SimE.bind S_asg fun _ => ih _

/-- freeing the memory of an object without destroying it: what it owned remains -/
theorem free_tmp : Triple True (tmp e t v) (free t) (fun _ => ∃ₛ x, e.own x v) := by
  unfold tmp
  refine Triple.pre (P' := obj e (t, 1) v ∗ blk t 1) (by cancel) ?_
  unfold obj cell
  xintro x
  refine Triple.pre (P' := (blk t 1 ∗ pts (t, 1) x) ∗ e.own x v) (by cancel) ?_
  refine Triple.post (Triple.frame free1) fun _ => ?_
  rw [emp_sep]
  exact ent_ex_right x (ent_refl _)

/-- the exact effect of `algo_push_heap_by` -/
theorem S_pushHeap_leak (hf : Compares e comp2 comp) (h2 : ¬ last - first < 2) :
    Sim e F (Algo.pushHeap c first last comp) (Own.pushHeap o c first last comp2) (fun _ _ => (∃ₛ x, ∃ₛ v, e.own x v) ∗ F) := by
  unfold Algo.pushHeap Own.pushHeap
  rw [if_neg h2, if_neg h2]
  refine SimE.bind S_dec fun last => ?_
  refine Sim.bind S_new fun v t => ?_
  refine SimE.bind (S_pushLoop hf) fun hole => ?_
  rw [← bind_pure (wr _ _)]
  refine SimE.bind S_wr fun _ => ?_
  rw [← bind_pure (free t)]
  refine Sim.right (free_tmp (e := e) (v := v)) (ent_refl _) fun _ => ?_
  refine Sim.ret ?_
  refine sep_mono (ent_ex_left fun x => ?_) (ent_refl _)
  exact ent_ex_right x (ent_ex_right v (ent_refl _))

theorem S_pushHeap (hF : ∀ x w, (e.own x w ∗ F) ⊢ₛ F) (hf : Compares e comp2 comp) : SimE e F (Algo.pushHeap c first last comp) (Own.pushHeap o c first last comp2) := by
  by_cases h2 : last - first < 2
  · unfold Algo.pushHeap Own.pushHeap
    rw [if_pos h2, if_pos h2]
    exact SimE.pure
  · refine Sim.post (S_pushHeap_leak hf h2) fun a' a => ?_
    rw [hex_sep]
    refine ent_ex_left fun x => ?_
    rw [hex_sep]
    refine ent_ex_left fun v => ?_
    refine ent_trans (hF x v) ?_
    exact ent_pure_right rfl (ent_refl _)

set_option hygiene false in
macro_rules | `(tactic| sim1) => `(tactic| with_reducible exact S_pushHeap hF hf)

theorem S_partialSortLoop (hF : ∀ x w, (e.own x w ∗ F) ⊢ₛ F) (hf : Compares e comp2 comp) : SimE e F (Algo.partialSortLoop c comp first middle last it) (Own.partialSortLoop o c comp2 first middle last it) := by
  refine Algo.partialSortLoop.fixpoint_induct c comp first middle last (fun f' => ∀ it, SimE e F (f' it) (Own.partialSortLoop o c comp2 first middle last it)) Sim.adm1 ?_ it
  intro f' ih it
  rw [Own.partialSortLoop]
  sim

set_option hygiene false in
macro_rules | `(tactic| sim1) => `(tactic| with_reducible exact S_partialSortLoop hF hf)

theorem S_partialSort (hF : ∀ x w, (e.own x w ∗ F) ⊢ₛ F) (hf : Compares e comp2 comp) : SimE e F (Algo.partialSort c first middle last comp) (Own.partialSort o c first middle last comp2) := by
  unfold Algo.partialSort Own.partialSort
  sim

theorem S_pscLoop (hF : ∀ x w, (e.own x w ∗ F) ⊢ₛ F) (hf : Compares e comp2 comp) : SimE e F (Algo.pscLoop c d comp last dFirst dt it) (Own.pscLoop o c d comp2 last dFirst dt it) := by
  refine Algo.pscLoop.fixpoint_induct c d comp last dFirst dt (fun f' => ∀ it, SimE e F (f' it) (Own.pscLoop o c d comp2 last dFirst dt it)) Sim.adm1 ?_ it
  intro f' ih it
  rw [Own.pscLoop]
  sim

set_option hygiene false in
macro_rules | `(tactic| sim1) => `(tactic| with_reducible exact S_pscLoop hF hf)

theorem S_partialSortCopy (hF : ∀ x w, (e.own x w ∗ F) ⊢ₛ F) (hf : Compares e comp2 comp) : SimE e F (Algo.partialSortCopy c first last d dFirst dLast comp) (Own.partialSortCopy o c first last d dFirst dLast comp2) := by
  unfold Algo.partialSortCopy Own.partialSortCopy
  sim

/-- heap sort of the whole range (as `algo_sort_by` uses it) pushes nothing -/
theorem S_partialSort_all (hf : Compares e comp2 comp) : SimE e F (Algo.partialSort c first last last comp) (Own.partialSort o c first last last comp2) := by
  unfold Algo.partialSort Own.partialSort
  rw [Algo.partialSortLoop, Own.partialSortLoop]
  simp only [ne_eq, not_true_eq_false, ↓reduceIte]
  sim

/-! ## sort -/

/-- copying into raw memory -/
theorem S_place : Sim e (blk t 1 ∗ pts (t, 1) y ∗ F) (ldV l) (o.copy (t, 1) l) (fun v _ => tmp e t v ∗ F) := by
  intro s' v t' hr
  obtain ⟨h1, h2⟩ := ldV_run hr
  rw [h2]
  refine Triple.pre (P' := (obj e l v ∗ ∃ₛ y, pts (t, 1) y) ∗ (owned e (hdel s'.cells l) ∗ blk t 1 ∗ F)) ?_ ?_
  · refine ent_trans (sep_mono (owned_take h1) (ent_refl _)) ?_
    xexists y
    cancel
  refine Triple.post (Triple.frame copyCell_spec) fun _ => ?_
  refine ent_trans (Q := (obj e l v ∗ owned e (hdel s'.cells l)) ∗ (tmp e t v ∗ F)) ?_ (sep_mono (owned_back h1) (ent_refl _))
  unfold tmp
  cancel

theorem S_median {x y z : Loc} (hf : Compares e comp2 comp) : Sim e F (Algo.median x y z comp) (Own.median o x y z comp2) (fun v t => tmp e t v ∗ F) := by
  unfold Algo.median Own.median
  intro s' v t' hr
  apply mallocO1
  · intro h; exact absurd trivial h
  intro r hr0
  rw [if_neg hr0]
  refine Triple.pre (P' := owned e s'.cells ∗ (blk r 1 ∗ pts (r, 1) (.obj none) ∗ F)) (by cancel) ?_
  revert s' v t' hr
  show Sim e (blk r 1 ∗ pts (r, 1) (.obj none) ∗ F) _ _ _
  rw [← bind_pure (Algo.cmp comp x y >>= _), bind_assoc]
  refine SimE.bind (S_cmp hf) fun b => ?_
  refine Sim.bind (G := fun v _ => tmp e r v ∗ F) ?_ fun v _ => Sim.ret (ent_refl _)
  refine Sim.ite (fun _ => ?_) (fun _ => ?_)
  all_goals
    refine SimE.bind (S_cmp hf) fun b => ?_
    refine Sim.ite (fun _ => S_place) (fun _ => ?_)
    refine SimE.bind (S_cmp hf) fun b => ?_
    exact Sim.ite (fun _ => S_place) (fun _ => S_place)

theorem S_upScan (hf : Compares e comp2 comp) : SimE e (tmp e t v ∗ F) (Algo.upScan c comp v first) (Own.upScan c comp2 (t, 1) first) := by
  refine Algo.upScan.fixpoint_induct c comp v (fun f' => ∀ first, SimE e (tmp e t v ∗ F) (f' first) (Own.upScan c comp2 (t, 1) first)) Sim.adm1 ?_ first
  intro f' ih first
  rw [Own.upScan]
  refine SimE.bind (S_cmpL hf) fun b => ?_
  exact Sim.ite (fun _ => ih _) (fun _ => SimE.pure)

theorem S_downScan (hf : Compares e comp2 comp) : SimE e (tmp e t v ∗ F) (Algo.downScan c comp v last) (Own.downScan c comp2 (t, 1) last) := by
  refine Algo.downScan.fixpoint_induct c comp v (fun f' => ∀ last, SimE e (tmp e t v ∗ F) (f' last) (Own.downScan c comp2 (t, 1) last)) Sim.adm1 ?_ last
  intro f' ih last
  rw [Own.downScan]
  refine SimE.bind (S_cmpR hf) fun b => ?_
  exact Sim.ite (fun _ => SimE.bind S_dec fun _ => ih _) (fun _ => SimE.pure)

theorem S_hoare (hf : Compares e comp2 comp) : SimE e (tmp e t v ∗ F) (Algo.hoare c comp v first last) (Own.hoare o c comp2 (t, 1) first last) := by
  refine Algo.hoare.fixpoint_induct c comp v (fun f' => ∀ first last, SimE e (tmp e t v ∗ F) (f' first last) (Own.hoare o c comp2 (t, 1) first last)) Sim.adm2 ?_ first last
  intro f' ih first last
  rw [Own.hoare]
  refine SimE.bind (S_upScan hf) fun first => ?_
  refine SimE.bind S_dec fun last => ?_
  refine SimE.bind (S_downScan hf) fun last => ?_
  exact Sim.ite (fun _ => SimE.bind S_swp fun _ => ih _ _) (fun _ => SimE.pure)

theorem S_introsort (hf : Compares e comp2 comp) : SimE e F (Algo.introsort c comp depth first last) (Own.introsort o c comp2 depth first last) := by
  induction depth generalizing first last F with
  | zero =>
    rw [Algo.introsort, Own.introsort]
    exact Sim.ite (fun _ => S_partialSort_all hf) (fun _ => SimE.pure)
  | succ depth ih =>
    rw [Algo.introsort, Own.introsort]
    refine Sim.ite (fun _ => ?_) (fun _ => SimE.pure)
    refine Sim.bind (S_median hf) fun v t => ?_
    refine SimE.bind (S_hoare hf) fun part => ?_
    refine SimE.bind ih fun _ => ?_
    refine Sim.right (drop_spec (e := e) (v := v)) (ent_refl _) fun _ => ?_
    rw [emp_sep]
    exact ih

theorem S_ulLoop {val : M W W} (hc : ∀ l, SimE e F (do let v ← val; let a ← ldV l; pure (comp v a)) (comp2 value l)) :
    SimE e F (Algo.ulLoop c val comp last next) (Own.ulLoop o c value comp2 last next) := by
  refine Algo.ulLoop.fixpoint_induct c val comp (fun f' => ∀ last next, SimE e F (f' last next) (Own.ulLoop o c value comp2 last next)) Sim.adm2 ?_ last next
  intro f' ih last next
  rw [Own.ulLoop]
  have : (val >>= fun v => ldV (c next) >>= fun a => if comp v a = true then Algo.asg (c last) (c next) >>= fun _ => Algo.dec next >>= fun next' => f' next next' else pure last) =
    ((do let v ← val; let a ← ldV (c next); pure (comp v a)) >>= fun b => if b = true then Algo.asg (c last) (c next) >>= fun _ => Algo.dec next >>= fun next' => f' next next' else pure last) := by
    simp only [bind_assoc, pure_bind]
  dsimp only
  rw [this]
  refine SimE.bind (hc _) fun b => ?_
  refine Sim.ite (fun _ => ?_) (fun _ => SimE.pure)
  exact SimE.bind S_asg fun _ => SimE.bind S_dec fun _ => ih _ _

theorem S_unguardedLinear {val : M W W} (hc : ∀ l, SimE e F (do let v ← val; let a ← ldV l; pure (comp v a)) (comp2 value l))
    (ha : ∀ l, SimE e F (do let v ← val; Algo.wr l v) (o.assign l value)) : SimE e F (Algo.unguardedLinear c val comp last) (Own.unguardedLinear o c value comp2 last) := by
  unfold Algo.unguardedLinear Own.unguardedLinear
  refine SimE.bind S_dec fun next => ?_
  exact SimE.bind (S_ulLoop hc) fun l => ha _

theorem S_linearSort (hf : Compares e comp2 comp) : SimE e F (Algo.linearSort c first last comp) (Own.linearSort o c first last comp2) := by
  unfold Algo.linearSort Own.linearSort
  refine Sim.bind S_new fun v t => ?_
  have : ∀ A B : M W Unit, (ldV (c first) >>= fun a => if comp v a = true then A else B) = (Algo.test (fun a => comp v a) (c first) >>= fun b => (if b = true then A else B) >>= fun _ => pure ()) := by
    intro A B
    unfold Algo.test
    simp only [bind_assoc, pure_bind, bind_pure_unit]
  rw [this]
  refine SimE.bind (S_cmpR hf) fun b => ?_
  refine SimE.bind (F := tmp e t v ∗ F) ?_ fun _ => S_drop
  refine Sim.ite (fun _ => ?_) (fun _ => ?_)
  · exact SimE.bind S_copyBackward fun _ => S_wr
  · refine S_unguardedLinear (fun l => ?_) (fun l => ?_)
    · simp only [pure_bind]
      exact S_cmpR hf
    · simp only [pure_bind]
      exact S_wr

set_option hygiene false in
macro_rules | `(tactic| sim1) => `(tactic| with_reducible exact S_linearSort hf)

theorem S_insertionLoop (hf : Compares e comp2 comp) : SimE e F (Algo.insertionLoop c comp first it last) (Own.insertionLoop o c comp2 first it last) := by
  refine Algo.insertionLoop.fixpoint_induct c comp first last (fun f' => ∀ it, SimE e F (f' it) (Own.insertionLoop o c comp2 first it last)) Sim.adm1 ?_ it
  intro f' ih it
  rw [Own.insertionLoop]
  sim

theorem S_insertionSort (hf : Compares e comp2 comp) : SimE e F (Algo.insertionSort c first last comp) (Own.insertionSort o c first last comp2) := by
  unfold Algo.insertionSort Own.insertionSort
  exact Sim.ite (fun _ => SimE.pure) (fun _ => S_insertionLoop hf)

theorem S_unguardedInsertion (hf : Compares e comp2 comp) : SimE e F (Algo.unguardedInsertion c comp it last) (Own.unguardedInsertion o c comp2 it last) := by
  refine Algo.unguardedInsertion.fixpoint_induct c comp last (fun f' => ∀ it, SimE e F (f' it) (Own.unguardedInsertion o c comp2 it last)) Sim.adm1 ?_ it
  intro f' ih it
  rw [Own.unguardedInsertion]
  refine Sim.ite (fun _ => ?_) (fun _ => SimE.pure)
  refine SimE.bind (S_unguardedLinear (fun l => S_cmp hf) (fun l => S_asg)) fun _ => ih _

theorem S_finalSort (hf : Compares e comp2 comp) : SimE e F (Algo.finalSort c first last comp) (Own.finalSort o c first last comp2) := by
  unfold Algo.finalSort Own.finalSort
  refine Sim.ite (fun _ => ?_) (fun _ => S_insertionSort hf)
  exact SimE.bind (S_insertionSort hf) fun _ => S_unguardedInsertion hf

theorem S_sort (hf : Compares e comp2 comp) : SimE e F (Algo.sort c first last comp) (Own.sort o c first last comp2) := by
  unfold Algo.sort Own.sort
  refine Sim.ite (fun _ => SimE.pure) (fun _ => ?_)
  exact SimE.bind (S_introsort hf) fun _ => S_finalSort hf

end CC.Own
