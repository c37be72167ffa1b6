import Verif.Info.Model
import Verif.Props.CPq
import Verif.Deq.Spec2
import Verif.Core.Bad
import Verif.Props.CList
import Verif.Props.CSList
/-!
# Property C82: incomplete element types
-/
namespace CC.Info
open CC CC.Tac
variable {V α β : Type} {nf : Prop} {i : Table} {t : Nat} {R : HProp V}

/-- all entries marked required in include/c_def.h:93-126 are there -/
def Complete (i : Table) : Prop := i.size ≠ 0 ∧ i.create ≠ 0 ∧ i.copy ≠ 0 ∧ i.destroy ≠ 0 ∧ i.assign ≠ 0

/-- … and the two comparisons as well -/
def Comparable (i : Table) : Prop := Complete i ∧ i.less ≠ 0 ∧ i.equal ≠ 0

/-- from every memory with `P` the program ends in a failed assertion -/
def Refused (P : HProp V) (m : M V α) : Prop := ∀ s : Mem V, P s.cells → m s = some (.error .abort)

theorem Refused.step {P : HProp V} {m : M V α} {Q : α → HProp V} {k : α → M V β} (h : Triple False P m Q) (hk : ∀ a, Refused (Q a) (k a)) : Refused P (m >>= k) := by
  intro s hs
  obtain ⟨a, s', h1, h2, h3⟩ := h.run (F := emp) (s := s) (fun h => h.elim) (by rw [sep_emp]; exact hs)
  rw [bind_ok h1]
  rw [sep_emp] at h3
  exact hk a s' h3

theorem Refused.head {P : HProp V} {m : M V α} {k : α → M V β} (h : Refused P m) : Refused P (m >>= k) := fun s hs => bind_error (h s hs)

theorem Refused.pre {P P' : HProp V} {m : M V α} (he : P ⊢ₛ P') (h : Refused P' m) : Refused P m := fun s hs => h s (he _ hs)

/-- reading an entry and checking it -/
theorem Refused.check {P : HProp V} {j v : Nat} {m : M V α} (hp : ∃ R, P ⊢ₛ fld t j v ∗ R) (h : v ≠ 0 → Refused P m) :
    Refused P (do
      let f ← ldN (t, j)
      cassert (f != 0)
      m) := by
  obtain ⟨R, hp⟩ := hp
  have hr : ReadsN P (t, j) v := ReadsN.of_ent hp
  have hl : Triple False P (ldN (t, j)) (fun f => ⌜f = v⌝ ∗ P) := by
    rw [← bind_pure (ldN _)]
    exact ldN_reads hr (Triple.ret (ent_pure_right rfl (ent_refl _)))
  refine Refused.step hl fun f s hs => ?_
  rw [hpure_sep_apply] at hs
  obtain ⟨rfl, hs⟩ := hs
  by_cases h0 : f = 0
  · subst h0
    rfl
  · have hca : (cassert (f != 0) : M V Unit) = pure () := by unfold cassert; rw [if_pos (by simpa using h0)]
    rw [hca, pure_bind]
    exact h h0 s hs

/-- the same without a continuation -/
theorem Refused.check' {P : HProp V} {j : Nat} (hp : ∃ R, P ⊢ₛ fld t j 0 ∗ R) :
    Refused P (do
      let f ← ldN (t, j)
      cassert (f != 0) : M V Unit) := by
  have := Refused.check (m := (pure () : M V Unit)) hp (fun h => absurd rfl h)
  simpa using this

theorem validate_cps (hc : Complete i) {P : HProp V} {m : M V β} {Q : β → HProp V} (h : Triple nf (info t i ∗ P) m Q) :
    Triple nf (info t i ∗ P) (validate t >>= fun _ => m) Q := by
  obtain ⟨h1, h2, h3, h4, h5⟩ := hc
  unfold validate
  simp only [bind_assoc]
  unfold info at h ⊢
  step
  refine Triple.cassert_spec (by simpa using h1) ?_
  step
  refine Triple.cassert_spec (by simpa using h2) ?_
  step
  refine Triple.cassert_spec (by simpa using h3) ?_
  step
  refine Triple.cassert_spec (by simpa using h4) ?_
  step
  refine Triple.cassert_spec (by simpa using h5) ?_
  refine Triple.pre ?_ h
  cancel

theorem validateEx_cps (hc : Comparable i) {P : HProp V} {m : M V β} {Q : β → HProp V} (h : Triple nf (info t i ∗ P) m Q) :
    Triple nf (info t i ∗ P) (validateEx t >>= fun _ => m) Q := by
  obtain ⟨h1, h2, h3⟩ := hc
  unfold validateEx
  simp only [bind_assoc]
  refine validate_cps h1 ?_
  unfold info at h ⊢
  step
  refine Triple.cassert_spec (by simpa using h2) ?_
  step
  refine Triple.cassert_spec (by simpa using h3) ?_
  refine Triple.pre ?_ h
  cancel

theorem validate_refused (hc : ¬ Complete i) : Refused (info t i ∗ R) (validate t) := by
  unfold validate
  refine Refused.check (v := i.size) ⟨_, by unfold info; cancel⟩ fun h1 => ?_
  refine Refused.check (v := i.create) ⟨_, by unfold info; cancel⟩ fun h2 => ?_
  refine Refused.check (v := i.copy) ⟨_, by unfold info; cancel⟩ fun h3 => ?_
  refine Refused.check (v := i.destroy) ⟨_, by unfold info; cancel⟩ fun h4 => ?_
  have h5 : i.assign = 0 := Classical.byContradiction fun h => hc ⟨h1, h2, h3, h4, h⟩
  refine Refused.check' ⟨_, by unfold info; rw [h5]; cancel⟩

theorem validateEx_refused (hc : ¬ Comparable i) : Refused (info t i ∗ R) (validateEx t) := by
  unfold validateEx
  by_cases h : Complete i
  · refine Refused.step (Q := fun _ => info t i ∗ R) ?_ fun _ => ?_
    · have := validate_cps (nf := False) (t := t) (P := R) (m := (pure () : M V Unit)) (Q := fun _ => info t i ∗ R) h (Triple.ret (ent_refl _))
      simpa using this
    · refine Refused.check (v := i.less) ⟨_, by unfold info; cancel⟩ fun h1 => ?_
      have h5 : i.equal = 0 := Classical.byContradiction fun h2 => hc ⟨h, h1, h2⟩
      refine Refused.check' ⟨_, by unfold info; rw [h5]; cancel⟩
  · exact Refused.head (validate_refused h)

/-! ## the constructors -/

/-- Every constructor refuses an element type that lacks a required entry, by a failed assertion. -/
theorem C82_refused {E : Types V} {k : Adapter.Kind} {comp : Nat} (ht : t ≠ 0) (hc : ¬ Complete i) :
    Refused (info t i ∗ R) (listCreate t) ∧ Refused (info t i ∗ R) (slistCreate t) ∧ Refused (info t i ∗ R) (vectorCreate t) ∧ Refused (info t i ∗ R) (dequeCreate t) ∧
    Refused (info t i ∗ R) (adapterCreate E t (some k)) ∧ Refused (info t i ∗ R) (pqCreate E t (some k) comp) := by
  refine ⟨?_, ?_, ?_, ?_, ?_, ?_⟩
  · unfold listCreate; rw [if_neg ht]; exact Refused.head (validate_refused hc)
  · unfold slistCreate; rw [if_neg ht]; exact Refused.head (validate_refused hc)
  · unfold vectorCreate; rw [if_neg ht]; exact Refused.head (validate_refused hc)
  · unfold dequeCreate; rw [if_neg ht]; exact Refused.head (validate_refused hc)
  · unfold adapterCreate; rw [if_neg (by simp [ht])]; exact Refused.head (validate_refused hc)
  · unfold pqCreate; rw [if_neg (by simp [ht])]; exact Refused.head (validate_refused hc)

/-- A set or map is refused if its key type lacks a required entry or a comparison, or its value type a required entry. -/
theorem C82_tree_refused {kt vt mt kov cmp : Nat} {i i2 : Table} (h0 : kt ≠ 0 ∧ vt ≠ 0 ∧ kov ≠ 0 ∧ cmp ≠ 0) (hc : ¬ Comparable i ∨ ¬ Complete i2) :
    Refused (info kt i ∗ info vt i2 ∗ R) (treeCreate kt vt mt kov cmp) := by
  unfold treeCreate
  rw [if_neg (by simp [h0])]
  by_cases h : Comparable i
  · refine Refused.step (Q := fun _ => info kt i ∗ info vt i2 ∗ R) ?_ fun _ => ?_
    · have := validateEx_cps (nf := False) (t := kt) (P := info vt i2 ∗ R) (m := (pure () : M V Unit)) (Q := fun _ => info kt i ∗ info vt i2 ∗ R) h (Triple.ret (ent_refl _))
      simpa using this
    · refine Refused.pre (P' := info vt i2 ∗ (info kt i ∗ R)) (by cancel) ?_
      exact Refused.head (validate_refused (hc.resolve_left fun h' => h' h))
  · exact Refused.head (validateEx_refused h)

/-- A complete element type is accepted, and its table is left alone: the list is empty, or NULL if memory is short. -/
theorem C82_list (ht : t ≠ 0) (hc : Complete i) :
    Triple nf (info (V := V) t i) (listCreate t) (fun r => info t i ∗ ⌜r = 0 → ¬ nf⌝ ∗ if r = 0 then emp else ∃ₛ s, CList.isList r s t []) := by
  unfold listCreate
  rw [if_neg ht]
  refine Triple.pre (P' := info t i ∗ emp) (by cancel) ?_
  refine validate_cps hc ?_
  rw [← bind_pure (CList.create t)]
  refine CList.create_spec ht (fun h => ?_) fun l s hl => ?_
  · apply Triple.ret
    rw [if_pos rfl]
    cancel
    exact fun _ => h
  · apply Triple.ret
    rw [if_neg hl]
    cancel
    · exact ent_ex_right s (ent_refl _)
    · exact fun h => absurd h hl

theorem C82_slist (ht : t ≠ 0) (hc : Complete i) :
    Triple nf (info (V := V) t i) (slistCreate t) (fun r => info t i ∗ ⌜r = 0 → ¬ nf⌝ ∗ if r = 0 then emp else ∃ₛ a s, SList.isSList r a s t []) := by
  unfold slistCreate
  rw [if_neg ht]
  refine Triple.pre (P' := info t i ∗ emp) (by cancel) ?_
  refine validate_cps hc ?_
  rw [← bind_pure (SList.create t)]
  refine SList.create_spec ht (fun h => ?_) fun l a s hl => ?_
  · apply Triple.ret
    rw [if_pos rfl]
    cancel
    exact fun _ => h
  · apply Triple.ret
    rw [if_neg hl]
    cancel
    · exact ent_ex_right a (ent_ex_right s (ent_refl _))
    · exact fun h => absurd h hl

theorem C82_vector {W : Type} {T : Nat → Ops V} {e : ElemSpec nf (T t) W} (ht : t ≠ 0) (hc : Complete i) :
    Triple nf (info (V := V) t i) (vectorCreate t) (fun r => info t i ∗ ⌜r = 0 → ¬ nf⌝ ∗ if r = 0 then emp else Vec.isVec e r 0 0 []) := by
  unfold vectorCreate
  rw [if_neg ht]
  refine Triple.pre (P' := info t i ∗ emp) (by cancel) ?_
  refine validate_cps hc ?_
  rw [← bind_pure (Vec.create t)]
  refine Vec.create_spec (e := e) ht (fun h => ?_) fun l hl => ?_
  · apply Triple.ret
    rw [if_pos rfl]
    cancel
    exact fun _ => h
  · apply Triple.ret
    rw [if_neg hl]
    cancel
    · exact fun h => absurd h hl

theorem C82_deque {W : Type} {T : Nat → Ops V} {e : ElemSpec nf (T t) W} (ht : t ≠ 0) (hc : Complete i) :
    Triple nf (info (V := V) t i) (dequeCreate t) (fun r => info t i ∗ ⌜r = 0 → ¬ nf⌝ ∗ if r = 0 then emp else Deq.isDeq e r 0 0 0 []) := by
  unfold dequeCreate
  rw [if_neg ht]
  refine Triple.pre (P' := info t i ∗ emp) (by cancel) ?_
  refine validate_cps hc ?_
  call (Deq.create_spec (e := e) ht)
  intro r
  cancel

/-- stacks and queues -/
theorem C82_adapter {E : Types V} {k : Adapter.Kind} (ht : t ≠ 0) (hc : Complete i) :
    Triple nf (info (V := V) t i) (adapterCreate E t (some k)) (fun r => info t i ∗ ⌜r = 0 → ¬ nf⌝ ∗ if r = 0 then emp else Adapter.isAd E nf k r t []) := by
  unfold adapterCreate
  rw [if_neg (by simp [ht])]
  refine Triple.pre (P' := info t i ∗ emp) (by cancel) ?_
  refine validate_cps hc ?_
  call (Adapter.create_spec (nf := nf) (E := E) (k := k) ht)
  intro r
  cancel

/-- priority queues: the comparison is the one given, otherwise the entry `less` of the element type -/
theorem C82_priority_queue {E : Types V} {k : Adapter.Kind} {comp : Nat} (ht : t ≠ 0) (hc : Complete i) :
    Triple nf (info (V := V) t i) (pqCreate E t (some k) comp)
      (fun r => info t i ∗ ⌜r = 0 → ¬ nf⌝ ∗ if r = 0 then emp else Adapter.isPq E nf k r t (if comp ≠ 0 then comp else i.less) []) := by
  unfold pqCreate
  rw [if_neg (by simp [ht])]
  refine Triple.pre (P' := info t i ∗ emp) (by cancel) ?_
  refine validate_cps hc ?_
  unfold info
  step
  call (Adapter.pqCreate_spec (nf := nf) (E := E) (k := k) (comp := comp) (less := fun _ => i.less) ht)
  intro r
  cancel

theorem C82_tree {g : Tree.Cfg} {i i2 : Table} (hg : g.kt ≠ 0 ∧ g.vt ≠ 0 ∧ g.kov ≠ 0 ∧ g.cmp ≠ 0) (hc : Comparable i) (hc2 : Complete i2) :
    Triple nf (info (V := V) g.kt i ∗ info g.vt i2) (treeCreate g.kt g.vt g.mt g.kov g.cmp)
      (fun r => (info g.kt i ∗ info g.vt i2) ∗ ⌜r = 0 → ¬ nf⌝ ∗ if r = 0 then emp else ∃ₛ h, Tree.isTree r h g []) := by
  unfold treeCreate
  rw [if_neg (by simp [hg])]
  refine validateEx_cps hc ?_
  refine Triple.pre (P' := info g.vt i2 ∗ info g.kt i) (by cancel) ?_
  refine validate_cps hc2 ?_
  rw [← bind_pure (Tree.create g.kt g.vt g.mt g.kov g.cmp)]
  refine Tree.create_spec hg (fun h => ?_) fun l s hl => ?_
  · apply Triple.ret
    rw [if_pos rfl]
    cancel
    exact fun _ => h
  · apply Triple.ret
    rw [if_neg hl]
    cancel
    · exact ent_ex_right s (ent_refl _)
    · exact fun h => absurd h hl

/-! ## the optional entries `less` and `equal` -/

section lists
variable {F : Nat → V → V → Bool}

section
open CList
variable {l o s s2 ty : Nat} {xs ys : List (Elem V)}

theorem fn_some {f : Nat} (h : f ≠ 0) : fn F f = some (F f) := by unfold fn; rw [if_neg h]

/-- lists: `merge` with `less` -/
theorem C82_list_merge (hty : ty ≠ 0) (hl : i.less ≠ 0) :
    Triple nf ((isList l s ty xs ∗ isList o s2 ty ys) ∗ info ty i) (listMerge F l o)
      (fun _ => (∃ₛ zs, ⌜zs.Perm (xs ++ ys) ∧ (StrictWeak (F i.less) → Sorted (F i.less) (vals xs) → Sorted (F i.less) (vals ys) →
            Sorted (F i.less) (vals zs) ∧ StableOf (fun a b => F i.less a.val b.val) (xs ++ ys) zs)⌝ ∗
        isList l s ty zs ∗ isList o s2 ty []) ∗ info ty i) := by
  apply list_facts (l := l) (s := s) (ty := ty) (xs := xs) (R := isList o s2 ty ys ∗ info ty i) (by cancel); intro hl0 _ _ _
  unfold listMerge
  rw [if_neg hl0]
  call (ltype_spec (l := l) (s := s) (ty := ty) (xs := xs))
  intro r
  xsub
  unfold info
  step
  rw [fn_some hl]
  call (C06_merge (l := l) (s := s) (xs := xs) (o := o) (s2 := s2) (ys := ys) (comp := F i.less) hty)
  intro _
  cancel

/-- … and without: nothing happens -/
theorem C82_list_merge_without (hl : i.less = 0) :
    Triple nf ((isList l s ty xs ∗ isList o s2 ty ys) ∗ info ty i) (listMerge F l o) (fun _ => (isList l s ty xs ∗ isList o s2 ty ys) ∗ info ty i) := by
  apply list_facts (l := l) (s := s) (ty := ty) (xs := xs) (R := isList o s2 ty ys ∗ info ty i) (by cancel); intro hl0 _ _ _
  unfold listMerge
  rw [if_neg hl0]
  call (ltype_spec (l := l) (s := s) (ty := ty) (xs := xs))
  intro r
  xsub
  unfold info
  step
  have hf : fn F i.less = none := by unfold fn; rw [if_pos hl]
  rw [hf]
  unfold mergeBy
  rw [if_neg hl0]
  call (empty_spec (l := o) (s := s2) (ty := ty) (xs := ys))
  intro r
  xsub
  split
  · apply Triple.ret; cancel
  · apply Triple.ret; cancel

/-- lists: `sort` with `less` -/
theorem C82_list_sort (hty : ty ≠ 0) (hlen : xs.length < 2 ^ 64) (hl : i.less ≠ 0) (hc : StrictWeak (F i.less)) :
    Triple True (isList l s ty xs ∗ info ty i) (listSort F l)
      (fun _ => (∃ₛ s' ys, ⌜ys.Perm xs ∧ Sorted (F i.less) (vals ys) ∧ StableOf (fun a b => F i.less a.val b.val) xs ys⌝ ∗ isList l s' ty ys) ∗ info ty i) := by
  have triv : xs.length ≤ 1 → (isList l s ty xs ∗ info ty i) ⊢ₛ
      (∃ₛ s' ys, ⌜ys.Perm xs ∧ Sorted (F i.less) (vals ys) ∧ StableOf (fun a b => F i.less a.val b.val) xs ys⌝ ∗ isList l s' ty ys) ∗ info ty i := by
    intro h1
    refine sep_mono (ent_ex_right s (ent_ex_right xs (ent_pure_right ⟨List.Perm.refl _, ?_, ?_⟩ (ent_refl _)))) (ent_refl _)
    · match xs, h1 with
      | [], _ => exact List.Pairwise.nil
      | [x], _ => exact List.pairwise_singleton _ _
    · exact StableOf.refl _ _
  unfold listSort
  call (empty_spec (l := l) (s := s) (ty := ty) (xs := xs))
  intro r
  xsub
  apply Triple.ite
  · intro h
    apply Triple.ret
    exact triv (by cases xs <;> simp at h ⊢)
  intro _
  call (size_spec (l := l) (s := s) (ty := ty) (xs := xs))
  intro r
  xsub
  apply Triple.ite
  · intro h
    apply Triple.ret
    exact triv (by omega)
  intro _
  call (ltype_spec (l := l) (s := s) (ty := ty) (xs := xs))
  intro r
  xsub
  unfold info
  step
  rw [fn_some hl]
  call (C07_sort (l := l) (s := s) (xs := xs) (comp := F i.less) hty hlen hc)
  intro _
  cancel

/-- … and without: nothing happens -/
theorem C82_list_sort_without (hl : i.less = 0) :
    Triple nf (isList l s ty xs ∗ info ty i) (listSort F l) (fun _ => isList l s ty xs ∗ info ty i) := by
  have hf : fn F i.less = none := by unfold fn; rw [if_pos hl]
  unfold listSort
  call (empty_spec (l := l) (s := s) (ty := ty) (xs := xs))
  intro r
  xsub
  split
  · apply Triple.ret; cancel
  call (size_spec (l := l) (s := s) (ty := ty) (xs := xs))
  intro r
  xsub
  split
  · apply Triple.ret; cancel
  call (ltype_spec (l := l) (s := s) (ty := ty) (xs := xs))
  intro r
  xsub
  unfold info
  step
  rw [hf]
  unfold sortBy
  call (empty_spec (l := l) (s := s) (ty := ty) (xs := xs))
  intro r
  xsub
  split
  · apply Triple.ret; cancel
  call (size_spec (l := l) (s := s) (ty := ty) (xs := xs))
  intro r
  xsub
  split
  · apply Triple.ret; cancel
  · apply Triple.ret; cancel

/-- lists: `unique` with `equal` -/
theorem C82_list_unique (hl : i.equal ≠ 0) :
    Triple nf (isList l s ty xs ∗ info ty i) (listUnique F l)
      (fun _ => (∃ₛ ys, ⌜vals ys = uniqBy (F i.equal) (vals xs) ∧ ys.Sublist xs⌝ ∗ isList l s ty ys) ∗ info ty i) := by
  apply list_facts (l := l) (s := s) (ty := ty) (xs := xs) (R := info ty i) (by cancel); intro hl0 _ _ _
  unfold listUnique
  rw [if_neg hl0]
  call (ltype_spec (l := l) (s := s) (ty := ty) (xs := xs))
  intro r
  xsub
  unfold info
  step
  rw [fn_some hl]
  call (C10_unique (l := l) (s := s) (xs := xs) (pred := F i.equal))
  intro _
  cancel

/-- … and without: nothing happens -/
theorem C82_list_unique_without (hl : i.equal = 0) :
    Triple nf (isList l s ty xs ∗ info ty i) (listUnique F l) (fun _ => isList l s ty xs ∗ info ty i) := by
  have hf : fn F i.equal = none := by unfold fn; rw [if_pos hl]
  apply list_facts (l := l) (s := s) (ty := ty) (xs := xs) (R := info ty i) (by cancel); intro hl0 _ _ _
  unfold listUnique
  rw [if_neg hl0]
  call (ltype_spec (l := l) (s := s) (ty := ty) (xs := xs))
  intro r
  xsub
  unfold info
  step
  rw [hf]
  unfold uniqueIf
  call (empty_spec (l := l) (s := s) (ty := ty) (xs := xs))
  intro r
  xsub
  split
  · apply Triple.ret; cancel
  call (size_spec (l := l) (s := s) (ty := ty) (xs := xs))
  intro r
  xsub
  split
  · apply Triple.ret; cancel
  · apply Triple.ret; cancel

theorem listRemoveLoop_spec {value : Loc} {v : V} {R : HProp V} (hf : i.equal ≠ 0) (hv : Reads R value v) {X Y : List (Elem V)} :
    Triple nf (isList l s ty (X ++ Y) ∗ R ∗ info ty i) (listRemoveLoop F l value (firstN Y s) s)
      (fun _ => isList l s ty (X ++ Y.filter fun e => !F i.equal e.val v) ∗ R ∗ info ty i) := by
  induction Y generalizing X with
  | nil =>
    rw [listRemoveLoop, if_neg (by simp)]
    apply Triple.ret
    simp only [List.filter_nil]
    cancel
  | cons e Y ih =>
    apply list_facts (l := l) (R := R ∗ info ty i) (by cancel); intro hl hs0 hs hnd
    have hes := hs e (List.mem_append_right _ List.mem_cons_self)
    rw [listRemoveLoop, if_pos (by simpa using hes), firstN_cons]
    call ltype_spec
    intro r
    xsub
    unfold info
    step
    call valOf_in
    intro r
    xsub
    rw [if_neg hf]
    call ldV_in
    intro r
    xsub
    refine Triple.pre (P' := isList l s ty (X ++ e :: Y) ∗ R ∗ info ty i) (by unfold info; cancel) ?_
    refine ldV_reads (v := v) (hv.of_ent (R := isList l s ty (X ++ e :: Y) ∗ info ty i) (by cancel)) ?_
    apply Triple.ite
    · intro hp
      have he := erase_spec (nf := nf) (l := l) (s := s) (ty := ty) (X := X) (Y := Y) (e := e)
      unfold erase at he
      rw [if_neg hl] at he
      call he
      intro r
      xsub
      rw [List.filter_cons_of_neg (by simp [hp])]
      exact ih
    · intro hp
      call nxt_spec
      intro r
      xsub
      have ih' := ih (X := X ++ [e])
      simp only [List.append_assoc, List.cons_append, List.nil_append] at ih'
      rw [List.filter_cons_of_pos (by simp [hp])]
      exact ih'

/-- lists: `remove` with `equal` -/
theorem C82_list_remove_partial {value : Loc} {v : V} {R : HProp V} (hf : i.equal ≠ 0) (hv0 : value.1 ≠ 0) (hv : Reads R value v) :
    Triple nf (isList l s ty xs ∗ R ∗ info ty i) (listRemove F l value)
      (fun _ => isList l s ty (xs.filter fun e => !F i.equal e.val v) ∗ R ∗ info ty i) := by
  unfold listRemove
  call empty_spec
  intro r
  xsub
  cases xs with
  | nil => simp; apply Triple.ret; cancel
  | cons e xs =>
    rw [if_neg (by simp [hv0])]
    call begin_spec
    intro r
    xsub
    call end_spec
    intro r
    xsub
    have := listRemoveLoop_spec (F := F) (i := i) (nf := nf) (l := l) (s := s) (ty := ty) hf hv (X := []) (Y := e :: xs)
    simpa only [List.nil_append] using this

/-- … and without: undefined behaviour (a call of a NULL function pointer), for every list that is not empty. -/
theorem C82_list_remove_violated {value : Loc} (hf : i.equal = 0) (hv0 : value.1 ≠ 0) (hx : xs ≠ []) :
    Bad (isList l s ty xs ∗ R ∗ info ty i) (listRemove F l value) := by
  cases xs with
  | nil => exact absurd rfl hx
  | cons e xs =>
  unfold listRemove
  refine Bad.bind (F := R ∗ info ty i) (empty_spec (l := l) (s := s) (ty := ty) (xs := e :: xs)) fun r => ?_
  rw [sep_assoc]
  refine Bad.pure_left fun hr => ?_
  rw [hr, if_neg (by simp [hv0])]
  refine Bad.bind (F := R ∗ info ty i) (begin_spec (l := l) (s := s) (ty := ty) (xs := e :: xs)) fun r => ?_
  rw [sep_assoc]
  refine Bad.pure_left fun hr => ?_
  subst hr
  refine Bad.bind (F := R ∗ info ty i) (end_spec (l := l) (s := s) (ty := ty) (xs := e :: xs)) fun r => ?_
  rw [sep_assoc]
  refine Bad.pure_left fun hr => ?_
  subst hr
  refine Bad.fact (p := e.node ≠ r) (fun h hh => ?_) fun hes => ?_
  · exact (isList_facts hh).2.2.1 e List.mem_cons_self
  rw [listRemoveLoop, firstN_cons, if_pos hes]
  refine Bad.bind (F := R ∗ info ty i) (ltype_spec (l := l) (s := r) (ty := ty) (xs := e :: xs)) fun t => ?_
  rw [sep_assoc]
  refine Bad.pure_left fun hr => ?_
  subst hr
  refine Bad.pre (P' := info t i ∗ (isList l r t (e :: xs) ∗ R)) (by cancel) ?_
  refine Bad.bind (F := isList l r t (e :: xs) ∗ R) (Q := fun f => ⌜f = i.equal⌝ ∗ info t i) ?_ fun f => ?_
  · rw [← bind_pure (ldN _)]
    unfold info
    step
    apply Triple.ret
    exact ent_pure_right rfl (by cancel)
  rw [sep_assoc]
  refine Bad.pure_left fun hr => ?_
  refine Bad.pre (P' := isList l r t ([] ++ e :: xs) ∗ (info t i ∗ R)) (by rw [List.nil_append]; cancel) ?_
  refine Bad.bind (F := info t i ∗ R) (valOf_in (l := l) (s := r) (ty := t) (X := []) (Y := xs) (e := e)) fun x => ?_
  rw [hr, hf, if_pos rfl]
  intro s _ _
  rfl

end

section
open SList
open CC.CList (Elem nodes vals ltE firstN lastN firstN_nil firstN_cons lastN_nil lastN_cons lastN_append_cons)
variable {l a o a2 s s2 ty : Nat} {xs ys : List (Elem V)}

/-- forward lists: `merge` with `less` -/
theorem C82_slist_merge (hty : ty ≠ 0) (hl : i.less ≠ 0) :
    Triple nf ((isSList l a s ty xs ∗ isSList o a2 s2 ty ys) ∗ info ty i) (slistMerge F l o)
      (fun _ => (∃ₛ zs, ⌜zs.Perm (xs ++ ys) ∧ (StrictWeak (F i.less) → Sorted (F i.less) (vals xs) → Sorted (F i.less) (vals ys) →
            Sorted (F i.less) (vals zs) ∧ StableOf (fun a b => F i.less a.val b.val) (xs ++ ys) zs)⌝ ∗
        isSList l a s ty zs ∗ isSList o a2 s2 ty []) ∗ info ty i) := by
  apply list_facts (l := l) (a := a) (s := s) (ty := ty) (xs := xs) (R := isSList o a2 s2 ty ys ∗ info ty i) (by cancel); intro f0
  have hl0 := f0.l0
  unfold slistMerge
  rw [if_neg hl0]
  call (ltype_spec (l := l) (a := a) (s := s) (ty := ty) (xs := xs))
  intro r
  xsub
  unfold info
  step
  rw [fn_some hl]
  call (C14_merge (l := l) (a := a) (s := s) (xs := xs) (o := o) (a2 := a2) (s2 := s2) (ys := ys) (comp := F i.less) hty)
  intro _
  cancel

/-- … and without: nothing happens -/
theorem C82_slist_merge_without (hl : i.less = 0) :
    Triple nf ((isSList l a s ty xs ∗ isSList o a2 s2 ty ys) ∗ info ty i) (slistMerge F l o) (fun _ => (isSList l a s ty xs ∗ isSList o a2 s2 ty ys) ∗ info ty i) := by
  apply list_facts (l := l) (a := a) (s := s) (ty := ty) (xs := xs) (R := isSList o a2 s2 ty ys ∗ info ty i) (by cancel); intro f0
  have hl0 := f0.l0
  unfold slistMerge
  rw [if_neg hl0]
  call (ltype_spec (l := l) (a := a) (s := s) (ty := ty) (xs := xs))
  intro r
  xsub
  unfold info
  step
  have hf : fn F i.less = none := by unfold fn; rw [if_pos hl]
  rw [hf]
  unfold mergeBy
  apply Triple.ret
  cancel

/-- forward lists: `sort` with `less` -/
theorem C82_slist_sort (hty : ty ≠ 0) (hlen : xs.length < 2 ^ 64) (hl : i.less ≠ 0) (hc : StrictWeak (F i.less)) :
    Triple True (isSList l a s ty xs ∗ info ty i) (slistSort F l)
      (fun _ => (∃ₛ a' s' ys, ⌜ys.Perm xs ∧ Sorted (F i.less) (vals ys) ∧ StableOf (fun a b => F i.less a.val b.val) xs ys⌝ ∗ isSList l a' s' ty ys) ∗ info ty i) := by
  apply list_facts (l := l) (a := a) (s := s) (ty := ty) (xs := xs) (R := info ty i) (by cancel); intro f0
  have hl0 := f0.l0
  unfold slistSort
  rw [if_neg hl0]
  call (ltype_spec (l := l) (a := a) (s := s) (ty := ty) (xs := xs))
  intro r
  xsub
  unfold info
  step
  rw [fn_some hl]
  call (C14_sort (l := l) (a := a) (s := s) (xs := xs) (comp := F i.less) hty hlen hc)
  intro _
  cancel

/-- … and without: nothing happens -/
theorem C82_slist_sort_without (hl : i.less = 0) :
    Triple nf (isSList l a s ty xs ∗ info ty i) (slistSort F l) (fun _ => isSList l a s ty xs ∗ info ty i) := by
  have hf : fn F i.less = none := by unfold fn; rw [if_pos hl]
  apply list_facts (l := l) (a := a) (s := s) (ty := ty) (xs := xs) (R := info ty i) (by cancel); intro f0
  have hl0 := f0.l0
  unfold slistSort
  rw [if_neg hl0]
  call (ltype_spec (l := l) (a := a) (s := s) (ty := ty) (xs := xs))
  intro r
  xsub
  unfold info
  step
  rw [hf]
  unfold sortBy
  call (empty_spec (l := l) (a := a) (s := s) (ty := ty) (xs := xs))
  intro r
  xsub
  split
  · apply Triple.ret; cancel
  rename_i hne
  have hx : xs ≠ [] := by intro h; subst h; simp at hne
  call (single_spec (l := l) (a := a) (s := s) (ty := ty) (xs := xs))
  intro r
  xintro _
  split
  · apply Triple.ret; cancel
  · apply Triple.ret; cancel

/-- forward lists: `unique` with `equal` -/
theorem C82_slist_unique (hl : i.equal ≠ 0) :
    Triple nf (isSList l a s ty xs ∗ info ty i) (slistUnique F l)
      (fun _ => (∃ₛ ys, ⌜vals ys = uniqBy (F i.equal) (vals xs) ∧ ys.Sublist xs⌝ ∗ isSList l a s ty ys) ∗ info ty i) := by
  apply list_facts (l := l) (a := a) (s := s) (ty := ty) (xs := xs) (R := info ty i) (by cancel); intro f0
  have hl0 := f0.l0
  unfold slistUnique
  rw [if_neg hl0]
  call (ltype_spec (l := l) (a := a) (s := s) (ty := ty) (xs := xs))
  intro r
  xsub
  unfold info
  step
  rw [fn_some hl]
  call (C14_unique (l := l) (a := a) (s := s) (xs := xs) (pred := F i.equal))
  intro _
  cancel

/-- … and without: nothing happens -/
theorem C82_slist_unique_without (hl : i.equal = 0) :
    Triple nf (isSList l a s ty xs ∗ info ty i) (slistUnique F l) (fun _ => isSList l a s ty xs ∗ info ty i) := by
  have hf : fn F i.equal = none := by unfold fn; rw [if_pos hl]
  apply list_facts (l := l) (a := a) (s := s) (ty := ty) (xs := xs) (R := info ty i) (by cancel); intro f0
  have hl0 := f0.l0
  unfold slistUnique
  rw [if_neg hl0]
  call (ltype_spec (l := l) (a := a) (s := s) (ty := ty) (xs := xs))
  intro r
  xsub
  unfold info
  step
  rw [hf]
  unfold uniqueIf
  call (empty_spec (l := l) (a := a) (s := s) (ty := ty) (xs := xs))
  intro r
  xsub
  split
  · apply Triple.ret; cancel
  rename_i hne
  have hx : xs ≠ [] := by intro h; subst h; simp at hne
  call (single_spec (l := l) (a := a) (s := s) (ty := ty) (xs := xs))
  intro r
  xintro _
  split
  · apply Triple.ret; cancel
  · apply Triple.ret; cancel

theorem slistRemoveLoop_spec {value : Loc} {v : V} {R : HProp V} (hf : i.equal ≠ 0) (hv : Reads R value v) {X Y : List (Elem V)} :
    Triple nf (isSList l a s ty (X ++ Y) ∗ R ∗ info ty i) (slistRemoveLoop F l value (lastN X a) (firstN Y s) s)
      (fun _ => isSList l a s ty (X ++ Y.filter fun e => !F i.equal e.val v) ∗ R ∗ info ty i) := by
  induction Y generalizing X with
  | nil =>
    rw [slistRemoveLoop, if_neg (by simp)]
    apply Triple.ret
    simp only [List.filter_nil]
    cancel
  | cons e Y ih =>
    apply list_facts (l := l) (R := R ∗ info ty i) (by cancel); intro f
    have hes := f.ns e (List.mem_append_right _ List.mem_cons_self)
    rw [slistRemoveLoop, if_pos ⟨by simpa using hes, f.lastN_ne.1⟩, firstN_cons]
    call ltype_spec
    intro r
    xsub
    unfold info
    step
    call valOf_in
    intro r
    xsub
    rw [if_neg hf]
    call ldV_in
    intro r
    xsub
    refine Triple.pre (P' := isSList l a s ty (X ++ e :: Y) ∗ R ∗ info ty i) (by unfold info; cancel) ?_
    refine ldV_reads (v := v) (hv.of_ent (R := isSList l a s ty (X ++ e :: Y) ∗ info ty i) (by cancel)) ?_
    apply Triple.ite
    · intro hp
      call popAfter_spec
      intro r
      xsub
      rw [List.filter_cons_of_neg (by simp [hp])]
      exact ih
    · intro hp
      call nxt_spec
      intro r
      xsub
      rw [firstN_cons]
      call nxt_spec'
      intro r
      xsub
      have ih' := ih (X := X ++ [e])
      simp only [List.append_assoc, List.cons_append, List.nil_append, lastN_append_cons, lastN_nil] at ih'
      rw [List.filter_cons_of_pos (by simp [hp])]
      exact ih'

/-- forward lists: `remove` with `equal` -/
theorem C82_slist_remove_partial {value : Loc} {v : V} {R : HProp V} (hf : i.equal ≠ 0) (hv0 : value.1 ≠ 0) (hv : Reads R value v) :
    Triple nf (isSList l a s ty xs ∗ R ∗ info ty i) (slistRemove F l value)
      (fun _ => isSList l a s ty (xs.filter fun e => !F i.equal e.val v) ∗ R ∗ info ty i) := by
  unfold slistRemove
  call empty_spec
  intro r
  xsub
  cases xs with
  | nil => simp; apply Triple.ret; cancel
  | cons e xs =>
    rw [if_neg (by simp [hv0])]
    call beforeBegin_spec
    intro r
    xsub
    have hnx := nxt_spec (nf := nf) (l := l) (a := a) (s := s) (ty := ty) (X := []) (Y := e :: xs)
    simp only [List.nil_append, lastN_nil] at hnx
    call hnx
    intro r
    xsub
    call end_spec
    intro r
    xsub
    have := slistRemoveLoop_spec (F := F) (i := i) (nf := nf) (l := l) (a := a) (s := s) (ty := ty) hf hv (X := []) (Y := e :: xs)
    simpa only [List.nil_append, lastN_nil] using this

/-- … and without: undefined behaviour (a call of a NULL function pointer), for every list that is not empty. -/
theorem C82_slist_remove_violated {value : Loc} (hf : i.equal = 0) (hv0 : value.1 ≠ 0) (hx : xs ≠ []) :
    Bad (isSList l a s ty xs ∗ R ∗ info ty i) (slistRemove F l value) := by
  cases xs with
  | nil => exact absurd rfl hx
  | cons e xs =>
  unfold slistRemove
  refine Bad.bind (F := R ∗ info ty i) (empty_spec (l := l) (a := a) (s := s) (ty := ty) (xs := e :: xs)) fun r => ?_
  rw [sep_assoc]
  refine Bad.pure_left fun hr => ?_
  rw [hr, if_neg (by simp [hv0])]
  refine Bad.fact (fun h hh => isSList_facts hh) fun f0 => ?_
  refine Bad.bind (F := R ∗ info ty i) (beforeBegin_spec (l := l) (a := a) (s := s) (ty := ty) (xs := e :: xs)) fun r => ?_
  rw [sep_assoc]
  refine Bad.pure_left fun hr => ?_
  subst hr
  have hnx := nxt_spec (nf := True) (l := l) (a := r) (s := s) (ty := ty) (X := []) (Y := e :: xs)
  simp only [List.nil_append, lastN_nil] at hnx
  refine Bad.bind (F := R ∗ info ty i) hnx fun n => ?_
  rw [sep_assoc]
  refine Bad.pure_left fun hr => ?_
  subst hr
  refine Bad.bind (F := R ∗ info ty i) (end_spec (l := l) (a := r) (s := s) (ty := ty) (xs := e :: xs)) fun z => ?_
  rw [sep_assoc]
  refine Bad.pure_left fun hr => ?_
  subst hr
  rw [slistRemoveLoop, firstN_cons, if_pos ⟨f0.ns e List.mem_cons_self, f0.as⟩]
  refine Bad.bind (F := R ∗ info ty i) (ltype_spec (l := l) (a := r) (s := z) (ty := ty) (xs := e :: xs)) fun t => ?_
  rw [sep_assoc]
  refine Bad.pure_left fun hr => ?_
  subst hr
  refine Bad.pre (P' := info t i ∗ (isSList l r z t (e :: xs) ∗ R)) (by cancel) ?_
  refine Bad.bind (F := isSList l r z t (e :: xs) ∗ R) (Q := fun f => ⌜f = i.equal⌝ ∗ info t i) ?_ fun f => ?_
  · rw [← bind_pure (ldN _)]
    unfold info
    step
    apply Triple.ret
    exact ent_pure_right rfl (by cancel)
  rw [sep_assoc]
  refine Bad.pure_left fun hr => ?_
  refine Bad.pre (P' := isSList l r z t ([] ++ e :: xs) ∗ (info t i ∗ R)) (by rw [List.nil_append]; cancel) ?_
  refine Bad.bind (F := info t i ∗ R) (valOf_in (l := l) (a := r) (s := z) (ty := t) (X := []) (Y := xs) (e := e)) fun x => ?_
  rw [hr, hf, if_pos rfl]
  intro s _ _
  rfl

end
end lists

/-! ## priority queues without a comparison -/

section pq
open Adapter
open CC.IAlgo (It)
variable {E : Types V} {k : Kind} {F : Nat → V → V → Bool} {Z : Nat → Nat} {a : Nat} {ws : List V}

theorem pqPush_without (hk : k ≠ .list) (ht : t ≠ 0) (hz : 0 < Z t) (hb : (ws.length + 1) * Z t < 2 ^ 63) {l : Loc} {v : V} (hl : l.1 ≠ 0) :
    Triple True (isPq E True k a t 0 ws ∗ pts l (.obj (some v))) (pqPushI E F Z a l) (fun _ => isPq E True k a t 0 (ws ++ [v]) ∗ pts l (.obj (some v))) := by
  refine Triple.fact (p := a ≠ 0) (fun h hh => pq_ne hh) ?_
  intro ha
  unfold pqPushI isPq
  rw [if_neg (by simp [ha, hl])]
  xintro b
  step
  refine Triple.pre (P' := isBack E True k b t ws ∗ (pts l (.obj (some v)) ∗ (blk a 2 ∗ fld a 1 b ∗ fld a 2 0))) (by cancel) ?_
  apply ops_spec
  call (bpushBack_spec (E := E) (k := k) (b := b) (ty := t) (ws := ws) (v := v) hl)
  intro _
  xintro ws1 h1
  have h1 : ws1 = ws ++ [v] := h1.resolve_right fun h => h.1 trivial
  subst h1
  step
  refine Triple.pre (P' := isBack E True k b t (ws ++ [v]) ∗ (pts l (.obj (some v)) ∗ blk a 2 ∗ fld a 1 b ∗ fld a 2 0)) (by cancel) ?_
  refine pq_open hk ht hz (by simpa using hb) fun r S impl ho => ?_
  refine backendIter_cps ho fun x hx => ?_
  refine Triple.pre (P' := S ∗ bk k b impl ∗ (It r x 0 ∗ Algo.seg r.ref 0 (ws ++ [v]) ∗ pts l (.obj (some v)) ∗ blk a 2 ∗ fld a 1 b ∗ fld a 2 0)) (by simp only [Bool.false_eq_true, ↓reduceIte]; cancel) ?_
  refine backendIter_cps ho fun y hy => ?_
  simp only [↓reduceIte]
  step
  unfold withComp
  rw [if_pos rfl, pure_bind]
  refine Triple.pre (P' := (Algo.seg r.ref 0 (ws ++ [v]) ∗ S ∗ blk b 2 ∗ fld b 1 k.addr ∗ fld b 2 impl) ∗ (It r x 0 ∗ It r y r.len ∗ pts l (.obj (some v)) ∗ blk a 2 ∗ fld a 1 b ∗ fld a 2 0)) (by unfold bk; cancel) ?_
  refine Triple.pre (sep_mono (ho.fold _ rfl) (ent_refl _)) ?_
  refine IAlgo.free_at (r := r) (x := x) (i := 0) (R := It r y r.len ∗ isBack E True k b t (ws ++ [v]) ∗ pts l (.obj (some v)) ∗ blk a 2 ∗ fld a 1 b ∗ fld a 2 0) (by cancel) ?_
  rw [← bind_pure (free y)]
  refine IAlgo.free_at (r := r) (x := y) (i := r.len) (R := isBack E True k b t (ws ++ [v]) ∗ pts l (.obj (some v)) ∗ blk a 2 ∗ fld a 1 b ∗ fld a 2 0) (by cancel) ?_
  apply Triple.ret
  xexists b
  cancel

/-- A priority queue is created, without complaint, for an element type without `less` when no comparison is given either; it is then not a priority queue: its top is the element
pushed first, whatever was pushed afterwards. -/
theorem C82_priority_queue_violated (hk : k ≠ .list) (ht : t ≠ 0) (hz : 0 < Z t) (hb : 2 * Z t < 2 ^ 63) (hc : Complete i) (hl : i.less = 0) {l1 l2 : Loc} {v1 v2 : V} :
    Triple True (info t i ∗ pts l1 (.obj (some v1)) ∗ pts l2 (.obj (some v2))) (do
        let q ← pqCreate E t (some k) 0
        pqPushI E F Z q l1
        pqPushI E F Z q l2
        let r ← front E q
        let o ← look r
        destroy E q
        pure o)
      (fun o => ⌜o = .elem (some v1)⌝ ∗ info t i ∗ pts l1 (.obj (some v1)) ∗ pts l2 (.obj (some v2))) := by
  refine Triple.fact (p := l1.1 ≠ 0 ∧ l2.1 ≠ 0) (fun h hh => ⟨?_, ?_⟩) ?_
  · rw [sep_left_comm] at hh; exact pts_ne_zero hh
  · rw [← sep_assoc, sep_comm] at hh; exact pts_ne_zero hh
  rintro ⟨h1, h2⟩
  call (C82_priority_queue (nf := True) (E := E) (k := k) (comp := 0) ht hc)
  intro q
  xintro hq
  rw [if_neg (fun h => hq h trivial), if_neg (by simp), hl]
  call (pqPush_without (E := E) (F := F) (k := k) (a := q) (t := t) (ws := []) (v := v1) hk ht hz (by simp; omega) h1)
  intro _
  call (pqPush_without (E := E) (F := F) (k := k) (a := q) (t := t) (ws := [] ++ [v1]) (v := v2) hk ht hz (by simpa using hb) h2)
  intro _
  call (pqTop_spec (nf := True) (E := E) (k := k) (a := q) (ty := t) (comp := 0) (ws := [] ++ [v1] ++ [v2]))
  intro r
  call (look_spec (nf := True) (r := r))
  intro o
  xintro ho
  call (pqDestroy_spec (nf := True) (E := E) (k := k) (a := q) (ty := t) (comp := 0) (ws := [] ++ [v1] ++ [v2]))
  intro _
  apply Triple.ret
  cancel

end pq

/-! ## Non-vacuity -/

/-- a complete table without comparisons, one that lacks `copy`, and one with everything -/
example : Complete ⟨1, 0, 2, 3, 4, 0, 5, 0, 0⟩ ∧ ¬ Complete ⟨1, 0, 2, 0, 4, 0, 5, 6, 7⟩ ∧ Comparable ⟨1, 0, 2, 3, 4, 0, 5, 6, 7⟩ := by
  simp [Complete, Comparable]

theorem exists_info (i : Table) (v1 v2 : V) : ∃ (m : Mem V) (t : Nat) (l1 l2 : Loc) (R : HProp V), t ≠ 0 ∧ (∀ t, m.orc t ≠ 0) ∧
    (info t i ∗ pts l1 (.obj (some v1)) ∗ pts l2 (.obj (some v2)) ∗ R) m.cells := by
  have h : Triple True emp (do
      let t ← mallocS 9
      stN (t, 1) i.size
      stN (t, 2) i.allocate
      stN (t, 3) i.create
      stN (t, 4) i.copy
      stN (t, 5) i.destroy
      stN (t, 6) i.deallocate
      stN (t, 7) i.assign
      stN (t, 8) i.less
      stN (t, 9) i.equal
      pure t : M V Nat) (fun t => info t i ∗ blk t 9) := by
    refine Triple.mallocG_spec (fun h => absurd trivial h) fun a j ha => ?_
    simp only [List.range, List.range.loop, List.map_cons, List.map_nil, arr]
    steps
    apply Triple.ret
    unfold info
    cancel
  obtain ⟨m, c, d, l, ho, hm⟩ := Algo.exists_ranges (V := V) [v1] [v2] v1
  simp only [Algo.seg_one] at hm
  obtain ⟨t, m', _, ho', hm'⟩ := h.run (s := m) (fun _ => ho) (by rw [emp_sep]; exact hm)
  refine ⟨m', t, c 0, d 0, blk t 9 ∗ pts l (.obj (some v1)), ?_, by rw [ho']; exact ho, ?_⟩
  · rw [sep_assoc, sep_left_comm] at hm'
    exact pts_ne_zero hm'
  · exact (show _ ⊢ₛ _ by cancel) _ hm'

/-- a list of a type without comparisons, reached with the API -/
example (v : V) : ∃ (m : Mem V) (t : Nat) (l : Loc) (R : HProp V) (a s : Nat) (e : CList.Elem V), (∀ t, m.orc t ≠ 0) ∧ l.1 ≠ 0 ∧
    (CList.isList a s t [e] ∗ (pts l (.obj (some v)) ∗ R) ∗ info t ⟨1, 0, 2, 3, 4, 0, 5, 0, 0⟩) m.cells := by
  obtain ⟨m, t, l1, l2, R, ht, ho, hm⟩ := exists_info (V := V) ⟨1, 0, 2, 3, 4, 0, 5, 0, 0⟩ v v
  have hl : l1.1 ≠ 0 := by
    rw [sep_left_comm] at hm
    exact pts_ne_zero hm
  have h : Triple True (pts l1 (.obj (some v)) : HProp V) (do
      let a ← CList.create t
      CList.pushBack (fun _ => ⟨v, fun _ _ => false, fun _ _ => false⟩) a l1
      pure a) (fun a => ∃ₛ s, ∃ₛ e, CList.isList a s t [e] ∗ pts l1 (.obj (some v))) := by
    refine CList.create_spec ht (fun h => absurd trivial h) fun a s ha => ?_
    refine Triple.bind (CList.pushBack_spec (nf := True) (v := v) hl (Reads.of_ent (R := CList.isList a s t []) Reads.pts (by cancel))) fun _ => ?_
    xintro N hN
    rcases hN.2 with h | ⟨e, h, _⟩
    · exact absurd h (hN.1 trivial)
    · subst h
      apply Triple.ret
      refine ent_ex_right s (ent_ex_right e ?_)
      rw [List.nil_append]
      cancel
  obtain ⟨a, m', _, ho', hm'⟩ := h.run (F := info t ⟨1, 0, 2, 3, 4, 0, 5, 0, 0⟩ ∗ pts l2 (.obj (some v)) ∗ R) (s := m) (fun _ => ho) ((show _ ⊢ₛ _ by cancel) _ hm)
  rw [hex_sep] at hm'
  obtain ⟨s, hm'⟩ := hm'
  rw [hex_sep] at hm'
  obtain ⟨e, hm'⟩ := hm'
  exact ⟨m', t, l1, pts l2 (.obj (some v)) ∗ R, a, s, e, by rw [ho']; exact ho, hl, (show _ ⊢ₛ _ by cancel) _ hm'⟩

end CC.Info
