import Verif.Own.Sim
import Verif.Algo.Modify
/-!
# The accesses of the algorithms to elements
-/
namespace CC.Own
open CC CC.Tac CC.Algo
variable {V W α β γ δ : Type} {o : AOps V} {e : AElem o W} {F : HProp V} {l r d s x y : Loc} {v : W} {t : Addr} {f : Loc → Loc → M V Bool} {g : Loc → M V Bool} {comp : W → W → Bool} {pred : W → Bool}

/-- `tmp = __c_allocate(value_type); value_type->copy(tmp, x);`, e.g. c_modifying.c:586-587 -/
def newO (o : AOps V) (x : Loc) : M V Addr := do
  let t ← mallocO 1
  if t = 0 then ub else do
  o.copy (t, 1) x
  pure t

/-- `value_type->destroy(tmp); __c_deallocate(value_type, tmp);`, e.g. c_modifying.c:590-591 -/
def dropO (o : AOps V) (t : Addr) : M V Unit := do
  o.destroy (t, 1)
  free t

/-- `algo_swap`, c_modifying.c:580-592, and `algo_iter_swap`, 621-631 -/
def swap (o : AOps V) (x y : Loc) : M V Unit := do
  let t ← newO o x
  o.assign x y
  o.assign y (t, 1)
  dropO o t

/-- a temporary object in a block of its own -/
def tmp (e : AElem o W) (t : Addr) (v : W) : HProp V := blk t 1 ∗ obj e (t, 1) v

/-! ## plain accesses that succeed -/

theorem ldV_run {s t : Mem W} (h : ldV l s = some (.ok (v, t))) : s.cells l = some (.obj (some v)) ∧ t.cells = s.cells := by
  have hl : ∀ x, s.cells l = some x → ldV l s = (match x with | .obj (some v) => Pure.pure v | _ => ub : M W W) s.bump := by
    intro x hc
    simp [ldV, load, Bind.bind, StateT.bind, ExceptT.bind, ExceptT.mk, Option.bind, ExceptT.bindCont, hc,
      get, getThe, MonadStateOf.get, StateT.get, set, StateT.set, Pure.pure, StateT.pure, ExceptT.pure]
    rfl
  rcases hc : s.cells l with _ | x
  · simp [ldV, load, Bind.bind, StateT.bind, ExceptT.bind, ExceptT.mk, Option.bind, ExceptT.bindCont, hc, ub, fault,
      get, getThe, MonadStateOf.get, StateT.get, Pure.pure, ExceptT.pure] at h
    cases h
  rw [hl x hc] at h
  split at h
  · cases h
    exact ⟨rfl, rfl⟩
  · cases h

theorem store_run {s t : Mem W} {x : Val W} {u : Unit} (h : store l x s = some (.ok (u, t))) : t.cells = fun k => if k = l then some x else s.cells k := by
  unfold store at h
  simp only [Bind.bind, StateT.bind, ExceptT.bind, ExceptT.mk, Option.bind, ExceptT.bindCont, get, getThe, MonadStateOf.get, StateT.get, Pure.pure, ExceptT.pure] at h
  by_cases hc : s.cells l = none
  · rw [dif_pos hc] at h
    cases h
  · rw [dif_neg hc] at h
    cases h
    rfl

theorem wr_run {s t : Mem W} {u : Unit} (h : wr l v s = some (.ok (u, t))) : ∃ w, s.cells l = some (.obj (some w)) ∧ t.cells = hput s.cells l v := by
  unfold wr at h
  obtain ⟨w, s1, h1, h2⟩ := ok_bind h
  obtain ⟨h3, h4⟩ := ldV_run h1
  refine ⟨w, h3, ?_⟩
  rw [store_run h2, h4]
  rfl

/-! ## the primitives -/

theorem S_new : Sim e F (ldV l) (newO o l) (fun v t => tmp e t v ∗ F) := by
  intro s' v t' hr
  obtain ⟨h1, h2⟩ := ldV_run hr
  rw [h2]
  unfold newO
  apply mallocO1
  · intro h; exact absurd trivial h
  intro t ht
  rw [if_neg ht]
  refine Triple.pre (P' := (obj e l v ∗ ∃ₛ y, pts (t, 1) y) ∗ (owned e (hdel s'.cells l) ∗ blk t 1 ∗ F)) ?_ ?_
  · refine ent_trans (sep_mono (ent_refl _) (sep_mono (ent_refl _) (sep_mono (owned_take h1) (ent_refl _)))) ?_
    xexists .obj none
    cancel
  refine Triple.bind (Triple.frame copyCell_spec) fun _ => ?_
  apply Triple.ret
  refine ent_trans (Q := (obj e l v ∗ owned e (hdel s'.cells l)) ∗ (tmp e t v ∗ F)) ?_ (sep_mono (owned_back h1) (ent_refl _))
  unfold tmp
  cancel

theorem drop_spec : Triple True (tmp e t v) (dropO o t) (fun _ => emp) := by
  unfold dropO tmp
  refine Triple.pre (P' := obj e (t, 1) v ∗ blk t 1) (by cancel) ?_
  refine Triple.bind (Triple.frame destroyCell_spec) fun _ => ?_
  xintro y
  refine Triple.pre (P' := blk t 1 ∗ pts (t, 1) y) (by cancel) free1

theorem S_asg : SimE e F (asg d s) (o.assign d s) := by
  intro s' a' t' hr
  unfold asg at hr
  obtain ⟨w, s1, h1, h2⟩ := ok_bind hr
  obtain ⟨h3, h4⟩ := ldV_run h1
  obtain ⟨u, h5, h6⟩ := wr_run h2
  rw [h4] at h5 h6
  rw [h6]
  by_cases hd : d = s
  · subst hd
    rw [h3] at h5
    cases h5
    refine Triple.pre (P' := obj e d w ∗ (owned e (hdel s'.cells d) ∗ F)) ?_ ?_
    · refine ent_trans (sep_mono (owned_take h3) (ent_refl _)) (by cancel)
    refine Triple.post (Triple.frame (e.self_spec d w)) fun _ => ?_
    refine ent_trans (Q := (obj e d w ∗ owned e (hdel s'.cells d)) ∗ (⌜a' = a'⌝ ∗ F)) (by cancel) (sep_mono (owned_set h3) (by cancel))
  · have h7 : hdel s'.cells d s = some (.obj (some w)) := by simp [hdel, Ne.symm hd, h3]
    refine Triple.pre (P' := (obj e d u ∗ obj e s w) ∗ (owned e (hdel (hdel s'.cells d) s) ∗ F)) ?_ ?_
    · refine ent_trans (sep_mono (ent_trans (owned_take h5) (sep_mono (ent_refl _) (owned_take h7))) (ent_refl _)) (by cancel)
    refine Triple.post (Triple.frame (e.assign_spec d s u w)) fun _ => ?_
    refine ent_trans (Q := (obj e d w ∗ (obj e s w ∗ owned e (hdel (hdel s'.cells d) s))) ∗ (⌜a' = a'⌝ ∗ F)) (by cancel) (sep_mono ?_ (by cancel))
    exact ent_trans (sep_mono (ent_refl _) (owned_back h7)) (owned_set h5)

theorem S_wr : SimE e (tmp e t v ∗ F) (wr l v) (o.assign l (t, 1)) := by
  intro s' a' t' hr
  obtain ⟨u, h5, h6⟩ := wr_run hr
  rw [h6]
  refine Triple.pre (P' := (obj e l u ∗ obj e (t, 1) v) ∗ (owned e (hdel s'.cells l) ∗ blk t 1 ∗ F)) ?_ ?_
  · unfold tmp
    refine ent_trans (sep_mono (owned_take h5) (ent_refl _)) (by cancel)
  refine Triple.post (Triple.frame (e.assign_spec l (t, 1) u v)) fun _ => ?_
  refine ent_trans (Q := (obj e l v ∗ owned e (hdel s'.cells l)) ∗ (⌜a' = a'⌝ ∗ tmp e t v ∗ F)) ?_ (sep_mono (owned_set h5) (by cancel))
  unfold tmp
  cancel

theorem S_test (hg : Tests e g pred) : SimE e F (test pred l) (g l) := by
  intro s' a' t' hr
  unfold test at hr
  obtain ⟨w, s1, h1, h2⟩ := ok_bind hr
  cases h2
  obtain ⟨h3, h4⟩ := ldV_run h1
  rw [h4]
  refine Triple.pre (P' := obj e l w ∗ (owned e (hdel s'.cells l) ∗ F)) ?_ ?_
  · refine ent_trans (sep_mono (owned_take h3) (ent_refl _)) (by cancel)
  refine Triple.post (Triple.frame (hg l w)) fun b => ?_
  refine ent_trans (Q := (obj e l w ∗ owned e (hdel s'.cells l)) ∗ (⌜b = pred w⌝ ∗ F)) (by cancel) (sep_mono (owned_back h3) (ent_refl _))

theorem S_cmp (hf : Compares e f comp) : SimE e F (cmp comp l r) (f l r) := by
  intro s' a' t' hr
  unfold cmp at hr
  obtain ⟨a, s1, h1, h2⟩ := ok_bind hr
  obtain ⟨b, s2, h3, h4⟩ := ok_bind h2
  cases h4
  obtain ⟨h5, h6⟩ := ldV_run h1
  obtain ⟨h7, h8⟩ := ldV_run h3
  rw [h6] at h7 h8
  rw [h8]
  by_cases hd : l = r
  · subst hd
    rw [h5] at h7
    cases h7
    refine Triple.pre (P' := obj e l a ∗ (owned e (hdel s'.cells l) ∗ F)) ?_ ?_
    · refine ent_trans (sep_mono (owned_take h5) (ent_refl _)) (by cancel)
    refine Triple.post (Triple.frame (hf.one l a)) fun x => ?_
    refine ent_trans (Q := (obj e l a ∗ owned e (hdel s'.cells l)) ∗ (⌜x = comp a a⌝ ∗ F)) (by cancel) (sep_mono (owned_back h5) (ent_refl _))
  · have h9 : hdel s'.cells l r = some (.obj (some b)) := by simp [hdel, Ne.symm hd, h7]
    refine Triple.pre (P' := (obj e l a ∗ obj e r b) ∗ (owned e (hdel (hdel s'.cells l) r) ∗ F)) ?_ ?_
    · refine ent_trans (sep_mono (ent_trans (owned_take h5) (sep_mono (ent_refl _) (owned_take h9))) (ent_refl _)) (by cancel)
    refine Triple.post (Triple.frame (hf.two l r a b)) fun x => ?_
    refine ent_trans (Q := (obj e l a ∗ (obj e r b ∗ owned e (hdel (hdel s'.cells l) r))) ∗ (⌜x = comp a b⌝ ∗ F)) (by cancel) (sep_mono ?_ (ent_refl _))
    exact ent_trans (sep_mono (ent_refl _) (owned_back h9)) (owned_back h5)

/-- comparison of an element with a temporary object -/
theorem S_cmpL (hf : Compares e f comp) : SimE e (tmp e t v ∗ F) (test (fun a => comp a v) l) (f l (t, 1)) := by
  intro s' a' t' hr
  unfold test at hr
  obtain ⟨a, s1, h1, h2⟩ := ok_bind hr
  cases h2
  obtain ⟨h5, h6⟩ := ldV_run h1
  rw [h6]
  refine Triple.pre (P' := (obj e l a ∗ obj e (t, 1) v) ∗ (owned e (hdel s'.cells l) ∗ blk t 1 ∗ F)) ?_ ?_
  · unfold tmp
    refine ent_trans (sep_mono (owned_take h5) (ent_refl _)) (by cancel)
  refine Triple.post (Triple.frame (hf.two l (t, 1) a v)) fun x => ?_
  refine ent_trans (Q := (obj e l a ∗ owned e (hdel s'.cells l)) ∗ (⌜x = comp a v⌝ ∗ tmp e t v ∗ F)) ?_ (sep_mono (owned_back h5) (ent_refl _))
  unfold tmp
  cancel

theorem S_cmpR (hf : Compares e f comp) : SimE e (tmp e t v ∗ F) (test (fun a => comp v a) l) (f (t, 1) l) := by
  intro s' a' t' hr
  unfold test at hr
  obtain ⟨a, s1, h1, h2⟩ := ok_bind hr
  cases h2
  obtain ⟨h5, h6⟩ := ldV_run h1
  rw [h6]
  refine Triple.pre (P' := (obj e (t, 1) v ∗ obj e l a) ∗ (owned e (hdel s'.cells l) ∗ blk t 1 ∗ F)) ?_ ?_
  · unfold tmp
    refine ent_trans (sep_mono (owned_take h5) (ent_refl _)) (by cancel)
  refine Triple.post (Triple.frame (hf.two (t, 1) l v a)) fun x => ?_
  refine ent_trans (Q := (obj e l a ∗ owned e (hdel s'.cells l)) ∗ (⌜x = comp v a⌝ ∗ tmp e t v ∗ F)) ?_ (sep_mono (owned_back h5) (ent_refl _))
  unfold tmp
  cancel

theorem S_dec {i : Nat} : SimE e F (dec i) (dec i) := by
  unfold dec
  exact Sim.ite (fun _ => Sim.ub) fun _ => SimE.pure

theorem S_not {m' : M W Bool} {m : M V Bool} (h : SimE e F m' m) : SimE e F (do Pure.pure (!(← m'))) (do Pure.pure (!(← m))) := by
  exact SimE.bind h fun _ => SimE.pure

/-- the end of the life of a temporary object -/
theorem S_drop : Sim e (tmp e t v ∗ F) (Pure.pure () : M W Unit) (dropO o t) (fun a' a => ⌜a = a'⌝ ∗ F) := by
  rw [← bind_pure (dropO o t)]
  refine Sim.right (drop_spec (e := e) (v := v)) (ent_refl _) fun _ => ?_
  rw [emp_sep]
  exact SimE.pure

theorem S_swp : SimE e F (swp x y) (swap o x y) := by
  unfold swp swap
  refine Sim.bind S_new fun v t => ?_
  refine SimE.bind S_asg fun _ => ?_
  rw [← bind_pure (wr y v)]
  exact SimE.bind S_wr fun _ => S_drop

end CC.Own
