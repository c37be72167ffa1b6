import Verif.Deq.Spec2
import Verif.Vec.Spec5
import Verif.Core.Bad
/-!
# Copying and assigning deques
-/
namespace CC.Deq
open CC CC.Tac
open CC.Vec (nullP freeStorage buf buf_zero buf_ne arg arg_null arg_cell psub_spec psub_spec' pminus_spec pminus_spec' freeStorage_spec
  CanCopy live_snoc raws_pos newCap overwrite_spec overwrite_raw)
variable {V W β α : Type} {nf : Prop} {T : Nat → Ops V} {ty : Nat} {e : ElemSpec nf (T ty) W}
variable {v b lo n hi : Nat} {ws : List W} {R : HProp V}

theorem reserve_enough {k : Nat} (h : k ≤ lo + ws.length + hi) :
    Triple nf (isDeq e v b lo hi ws) (reserve T v k) (fun _ => isDeq e v b lo hi ws) := by
  apply deq_fact'; intro hv
  unfold reserve
  step
  · simpa using hv
  call (lift (e := e) (capacity_spec (v := v)))
  intro r
  xsub
  rw [if_neg (by omega)]
  apply Triple.ret
  exact ent_refl _

/-- `__reserve` on an empty deque adds default elements -/
theorem reserve_grow {k : Nat} (h : lo + hi < k) :
    Triple nf (isDeq e v b lo hi []) (reserve T v k)
      (fun _ => ∃ₛ b' lo' hi' ws', ⌜ws' = List.replicate k e.dflt ∨ (¬ nf ∧ ws' = [] ∧ b' = b ∧ lo' = lo ∧ hi' = hi)⌝ ∗ isDeq e v b' lo' hi' ws') := by
  apply deq_fact'; intro hv
  unfold reserve
  step
  · simpa using hv
  call (lift (e := e) (capacity_spec (v := v)))
  intro r
  xsub
  rw [if_pos (by simpa using h)]
  unfold resize
  have h1 := resize_grow (e := e) (v := v) (b := b) (lo := lo) (hi := hi) (ws := []) (count := k) (value := (0, 0)) (w := e.dflt)
    (by simp; omega) (Or.inr (Or.inl rfl))
  rw [arg_null rfl] at h1
  call h1
  · rfl
  intro _
  xintro b' lo' hi' ws' h' _
  xexists b', lo', hi', ws'
  cancel
  rcases h'.1 with ⟨rfl, _⟩ | ⟨h1, _, h2, h3, h4, h5⟩
  · left; simp
  · exact Or.inr ⟨h1, h2, h3, h4, h5⟩

/-- What `c_deque_copy` does, when no allocation fails: the copy has as many elements as the source has slots. -/
theorem copy_spec {T : Nat → Ops V} {e : ElemSpec True (T ty) W} (hp : e.Plain) (hty : ty ≠ 0) :
    Triple True (isDeq e v b lo hi ws) (copy T v)
      (fun r => isDeq e v b lo hi ws ∗ ∃ₛ b' lo' hi', isDeq e r b' lo' hi' (ws ++ List.replicate (lo + hi) e.dflt)) := by
  apply deq_fact'; intro hv
  unfold copy
  rw [if_neg hv]
  call (lift (e := e) (ldTy (v := v)))
  intro r
  xsub
  call (create_spec (e := e) hty)
  intro r
  xintro hr
  by_cases hr0 : r = 0
  · exact absurd trivial (hr hr0)
  rw [if_neg hr0, if_neg hr0]
  call (lift (e := e) (capacity_spec (v := v)))
  intro c
  xsub
  have hres : Triple True (isDeq e r 0 0 0 []) (reserve T r (lo + ws.length + hi))
      (fun _ => ∃ₛ b' lo' hi', isDeq e r b' lo' hi' (List.replicate (lo + ws.length + hi) e.dflt)) := by
    by_cases hc : lo + ws.length + hi = 0
    · rw [hc]
      refine Triple.post (reserve_enough (by simp)) ?_
      intro _
      xexists 0, 0, 0
      rw [sep_emp]
      exact ent_refl _
    · refine Triple.post (reserve_grow (by omega)) ?_
      intro _
      xintro b' lo' hi' ws' h
      rcases h with rfl | ⟨h, _⟩
      · xexists b', lo', hi'
        rw [sep_emp]
        exact ent_refl _
      · exact absurd trivial h
  call hres
  intro _
  xintro b' lo' hi'
  call (lift (e := e) (ldStart (v := r)))
  intro s
  xsub
  call (lift (e := e) (ldStart (v := v)))
  intro s
  xsub
  call (lift (e := e) (size_spec (v := v)))
  intro s
  xsub
  unfold isDeq
  call (overwrite_spec hp (b := b) (i := 1 + lo) (c := b') (j := 1 + lo') (ws := ws) (us := List.replicate (lo + ws.length + hi) e.dflt) (by simp; omega))
  intro _
  apply Triple.ret
  xexists b', lo', hi'
  have e1 : (ws ++ (List.replicate (lo + ws.length + hi) e.dflt).drop ws.length) = ws ++ List.replicate (lo + hi) e.dflt := by
    rw [List.drop_replicate]; congr 2; omega
  have e2 : (ws ++ List.replicate (lo + hi) e.dflt).length = (List.replicate (lo + ws.length + hi) e.dflt).length := by simp; omega
  rw [e1, e2]
  cancel

theorem createFrom_spec {T : Nat → Ops V} {e : ElemSpec True (T ty) W} {vb vi : Nat} (hp : e.Plain) (hty : ty ≠ 0) (hvb : vb ≠ 0) (hws : ws ≠ []) :
    Triple True (live e vb vi ws) (createFrom T ty (vb, vi) ws.length)
      (fun r => live e vb vi ws ∗ ∃ₛ b' lo' hi', isDeq e r b' lo' hi' ws) := by
  unfold createFrom
  rw [if_neg (by simp [hvb, hws, hty])]
  call (create_spec (e := e) hty)
  intro r
  xintro hr
  by_cases hr0 : r = 0
  · exact absurd trivial (hr hr0)
  rw [if_neg hr0, if_neg hr0]
  have hl : 0 < ws.length := List.length_pos_iff.2 hws
  call (reserve_grow (e := e) (v := r) (b := 0) (lo := 0) (hi := 0) (k := ws.length) (by omega))
  intro _
  xintro b' lo' hi' ws' h
  rcases h with rfl | ⟨h, _⟩
  · call (lift (e := e) (ldStart (v := r)))
    intro s
    xsub
    unfold isDeq
    call (overwrite_spec hp (b := vb) (i := vi) (c := b') (j := 1 + lo') (ws := ws) (us := List.replicate ws.length e.dflt) (by simp))
    intro _
    apply Triple.ret
    xexists b', lo', hi'
    rw [List.drop_eq_nil_of_le (by simp)]
    simp only [List.append_nil, List.length_replicate]
    cancel
  · exact absurd trivial h

theorem deqs_ne {e : ElemSpec nf (T ty) W} {v2 b2 lo2 hi2 : Nat} {ws2 : List W} {h : Heap V}
    (hh : (isDeq e v b lo hi ws ∗ isDeq e v2 b2 lo2 hi2 ws2) h) : v ≠ v2 := by
  unfold isDeq dhdr at hh
  have := loc_ne_of (l₁ := (v, 0)) (l₂ := (v2, 0)) hh (by cancel)
  intro h; exact this (by rw [h])

theorem stTy_spec {e : ElemSpec nf (T ty) W} : Triple nf (isDeq e v b lo hi ws) (stN (v, 5) ty) (fun _ => isDeq e v b lo hi ws) := by
  unfold isDeq dhdr
  rw [← bind_pure (stN (v, 5) ty)]
  step
  apply Triple.ret
  cancel

/-- the free space of a deque after `clear` -/
def clearLo (lo hi : Nat) (ws : List W) : Nat := if ws = [] then lo else (lo + ws.length + hi) / 2
/-- likewise behind -/
def clearHi (lo hi : Nat) (ws : List W) : Nat := if ws = [] then hi else lo + ws.length + hi - (lo + ws.length + hi) / 2

theorem clear_any : Triple nf (isDeq e v b lo hi ws) (clear T v) (fun _ => isDeq e v b (clearLo lo hi ws) (clearHi lo hi ws) []) := by
  unfold clearLo clearHi
  by_cases h : ws = []
  · subst h
    simp only [if_true]
    exact clear_nil
  · rw [if_neg h, if_neg h]
    exact clear_spec h

theorem clear_sum : clearLo lo hi ws + clearHi lo hi ws = lo + ws.length + hi := by
  unfold clearLo clearHi
  split
  · simp [*]
  · omega

/-- What `c_deque_assign` does when the source has more slots than the target: the source's elements padded with default elements. -/
theorem assign_grow {T : Nat → Ops V} {e : ElemSpec True (T ty) W} {v2 b2 lo2 hi2 : Nat} {ws2 : List W} (hp : e.Plain)
    (hlt : lo + ws.length + hi < lo2 + ws2.length + hi2) :
    Triple True (isDeq e v b lo hi ws ∗ isDeq e v2 b2 lo2 hi2 ws2) (assign T v v2)
      (fun r => ⌜r = v⌝ ∗ isDeq e v2 b2 lo2 hi2 ws2 ∗ ∃ₛ b' lo' hi', isDeq e v b' lo' hi' (ws2 ++ List.replicate (lo2 + hi2) e.dflt)) := by
  apply Triple.fact (p := v ≠ v2) (fun h hh => deqs_ne hh)
  intro hne
  apply deq_fact; intro hv
  rw [sep_comm]
  apply deq_fact; intro hv2
  unfold assign
  rw [if_neg (by simp [hv, hv2]), if_pos hne]
  call (clear_any (v := v))
  intro _
  call (lift (e := e) (ldTy (v := v2)))
  intro r
  xsub
  call (stTy_spec (v := v))
  intro _
  call (lift (e := e) (capacity_spec (v := v2)))
  intro c
  xsub
  call (reserve_grow (e := e) (v := v) (b := b) (lo := clearLo lo hi ws) (hi := clearHi lo hi ws) (k := lo2 + ws2.length + hi2) (by rw [clear_sum]; exact hlt))
  intro _
  xintro b' lo' hi' ws' h
  rcases h with rfl | ⟨h, _⟩
  · call (lift (e := e) (ldStart (v := v)))
    intro s
    xsub
    call (lift (e := e) (ldStart (v := v2)))
    intro s
    xsub
    call (lift (e := e) (size_spec (v := v2)))
    intro s
    xsub
    unfold isDeq
    call (overwrite_spec hp (b := b2) (i := 1 + lo2) (c := b') (j := 1 + lo') (ws := ws2) (us := List.replicate (lo2 + ws2.length + hi2) e.dflt) (by simp; omega))
    intro _
    apply Triple.ret
    xexists b', lo', hi'
    have e1 : (ws2 ++ (List.replicate (lo2 + ws2.length + hi2) e.dflt).drop ws2.length) = ws2 ++ List.replicate (lo2 + hi2) e.dflt := by
      rw [List.drop_replicate]; congr 2; omega
    have e2 : (ws2 ++ List.replicate (lo2 + hi2) e.dflt).length = (List.replicate (lo2 + ws2.length + hi2) e.dflt).length := by simp; omega
    rw [e1, e2]
    cancel
  · exact absurd trivial h

/-- … when it has not, and the copied bytes happen to fit: the target is left empty -/
theorem assign_lost {T : Nat → Ops V} {e : ElemSpec True (T ty) W} {v2 b2 lo2 hi2 : Nat} {ws2 : List W} (hp : e.Plain)
    (hge : lo2 + ws2.length + hi2 ≤ lo + ws.length + hi) (hfit : ws2.length ≤ clearHi lo hi ws) :
    Triple True (isDeq e v b lo hi ws ∗ isDeq e v2 b2 lo2 hi2 ws2) (assign T v v2)
      (fun r => ⌜r = v⌝ ∗ isDeq e v2 b2 lo2 hi2 ws2 ∗ isDeq e v b (clearLo lo hi ws) (clearHi lo hi ws) []) := by
  apply Triple.fact (p := v ≠ v2) (fun h hh => deqs_ne hh)
  intro hne
  apply deq_fact; intro hv
  rw [sep_comm]
  apply deq_fact; intro hv2
  unfold assign
  rw [if_neg (by simp [hv, hv2]), if_pos hne]
  call (clear_any (v := v))
  intro _
  call (lift (e := e) (ldTy (v := v2)))
  intro r
  xsub
  call (stTy_spec (v := v))
  intro _
  call (lift (e := e) (capacity_spec (v := v2)))
  intro c
  xsub
  call (reserve_enough (e := e) (v := v) (b := b) (lo := clearLo lo hi ws) (hi := clearHi lo hi ws) (ws := []) (k := lo2 + ws2.length + hi2)
    (by have := clear_sum (lo := lo) (hi := hi) (ws := ws); simp only [List.length_nil]; omega))
  intro _
  call (lift (e := e) (ldStart (v := v)))
  intro s
  xsub
  call (lift (e := e) (ldStart (v := v2)))
  intro s
  xsub
  call (lift (e := e) (size_spec (v := v2)))
  intro s
  xsub
  generalize clearLo lo hi ws = L at *
  generalize clearHi lo hi ws = H at *
  unfold isDeq
  have hr : raws (V := V) b (1 + L + ([] : List W).length) H = (raws b (1 + L) ws2.length ∗ raws b (1 + L + ws2.length) (H - ws2.length)) := by
    rw [← raws_append]; simp only [List.length_nil]; congr 1; omega
  rw [hr]
  call (overwrite_raw hp (b := b2) (i := 1 + lo2) (c := b) (j := 1 + L) (ws := ws2))
  intro _
  apply Triple.ret
  cancel

theorem assign_self : Triple nf (isDeq e v b lo hi ws) (assign T v v) (fun r => ⌜r = v⌝ ∗ isDeq e v b lo hi ws) := by
  unfold assign
  by_cases h : v = 0
  · rw [if_pos (Or.inl h)]; apply Triple.ret; cancel
  · rw [if_neg (by simp [h]), if_neg (by simp)]
    apply Triple.ret; cancel

theorem deq_null {h : Heap V} (hh : (isDeq e v 0 lo hi ws ∗ R) h) : lo + ws.length + hi = 0 := by
  unfold isDeq dhdr at hh
  rw [buf_zero] at hh
  have he : ((blk (V := V) v 5 ∗ pts (v, 1) (.ptr 0 1) ∗ pts (v, 2) (.ptr 0 (1 + lo)) ∗ pts (v, 3) (.ptr 0 (1 + lo + ws.length)) ∗
      pts (v, 4) (.ptr 0 (1 + lo + ws.length + hi)) ∗ fld v 5 ty ∗ ⌜lo + ws.length + hi = 0⌝) ∗
      raws 0 1 lo ∗ live e 0 (1 + lo) ws ∗ raws 0 (1 + lo + ws.length) hi) ⊢ₛ
      ⌜lo + ws.length + hi = 0⌝ ∗ ((blk (V := V) v 5 ∗ pts (v, 1) (.ptr 0 1) ∗ pts (v, 2) (.ptr 0 (1 + lo)) ∗ pts (v, 3) (.ptr 0 (1 + lo + ws.length)) ∗
      pts (v, 4) (.ptr 0 (1 + lo + ws.length + hi)) ∗ fld v 5 ty) ∗
      raws 0 1 lo ∗ live e 0 (1 + lo) ws ∗ raws 0 (1 + lo + ws.length) hi) := by cancel
  obtain ⟨_, _, _, _, h1, _⟩ := hh
  exact (hpure_sep_apply.1 (he _ h1)).1

/-- nothing of a deque is behind the end of another deque's storage -/
theorem deq_notIn {e : ElemSpec nf (T ty) W} (hp : e.Plain) {l : Loc} (hv : l.1 ≠ v) (hb : l.1 ≠ b ∨ lo + ws.length + hi < l.2) (hl2 : 0 < l.2) :
    NotIn l (isDeq e v b lo hi ws) := by
  obtain ⟨l1, l2⟩ := l
  simp only at hv hb hl2
  unfold isDeq dhdr
  have h1 : ∀ i, (l1, l2) ≠ (v, i) := fun i h => hv (by cases h; rfl)
  have hbuf : NotIn (V := V) (l1, l2) (buf b (lo + ws.length + hi)) := by
    by_cases h0 : b = 0
    · subst h0; rw [buf_zero]; exact .pure
    · rw [buf_ne h0]; exact .pts (by intro h; cases h; omega)
  have h3 : l1 ≠ b ∨ l2 < 1 ∨ 1 + lo ≤ l2 := by omega
  refine .sep (.sep (.pts (h1 _)) (.sep (.pts (h1 _)) (.sep (.pts (h1 _)) (.sep (.pts (h1 _)) (.sep (.pts (h1 _)) (.sep (.pts (h1 _)) hbuf))))))
    (.sep (.raws h3) (.sep (.live hp ?_) (.raws ?_)))
  · simp only; omega
  · simp only; omega

/-- … when they do not fit: `c_deque_assign` writes behind the end of the target's storage -/
theorem assign_bad {T : Nat → Ops V} {e : ElemSpec True (T ty) W} {v2 b2 lo2 hi2 : Nat} {ws2 : List W} (hp : e.Plain)
    (hge : lo2 + ws2.length + hi2 ≤ lo + ws.length + hi) (hfit : clearHi lo hi ws < ws2.length) :
    Bad (isDeq e v b lo hi ws ∗ isDeq e v2 b2 lo2 hi2 ws2) (assign T v v2) := by
  apply Bad.fact (p := v ≠ v2) (fun h hh => deqs_ne hh)
  intro hne
  apply Bad.fact (p := v ≠ 0 ∧ v2 ≠ 0)
  · intro h hh
    refine ⟨deq_ne hh, ?_⟩
    rw [sep_comm] at hh
    exact deq_ne hh
  rintro ⟨hv, hv2⟩
  unfold assign
  rw [if_neg (by simp [hv, hv2]), if_pos hne]
  refine Bad.bind (clear_any (v := v)) ?_
  intro _
  rw [sep_comm]
  refine Bad.bind (lift (e := e) (ldTy (v := v2))) ?_
  intro r
  rw [sep_assoc]
  apply Bad.pure_left
  rintro rfl
  rw [sep_comm]
  refine Bad.bind (stTy_spec (v := v)) ?_
  intro _
  rw [sep_comm]
  refine Bad.bind (lift (e := e) (capacity_spec (v := v2))) ?_
  intro c
  rw [sep_assoc]
  apply Bad.pure_left
  rintro rfl
  rw [sep_comm]
  refine Bad.bind (reserve_enough (e := e) (v := v) (b := b) (lo := clearLo lo hi ws) (hi := clearHi lo hi ws) (ws := []) (k := lo2 + ws2.length + hi2)
    (by have := clear_sum (lo := lo) (hi := hi) (ws := ws); simp only [List.length_nil]; omega)) ?_
  intro _
  have hcs := clear_sum (lo := lo) (hi := hi) (ws := ws)
  generalize clearLo lo hi ws = L at *
  generalize clearHi lo hi ws = H at *
  refine Bad.bind (lift (e := e) (ldStart (v := v))) ?_
  intro s
  rw [sep_assoc]
  apply Bad.pure_left
  rintro rfl
  rw [sep_comm]
  refine Bad.bind (lift (e := e) (ldStart (v := v2))) ?_
  intro s
  rw [sep_assoc]
  apply Bad.pure_left
  rintro rfl
  refine Bad.bind (lift (e := e) (size_spec (v := v2))) ?_
  intro s
  rw [sep_assoc]
  apply Bad.pure_left
  rintro rfl
  apply Bad.head
  intro m _ hm
  have hne0 : ∀ {v b lo hi v' b' lo' hi' : Nat} {ws ws' : List W} {h : Heap V}, b ≠ 0 → (isDeq e v b lo hi ws ∗ isDeq e v' b' lo' hi' ws') h →
      b ≠ v ∧ b ≠ v' ∧ (b ≠ b') := by
    intro v b lo hi v' b' lo' hi' ws ws' h hb hh
    unfold isDeq dhdr at hh
    rw [buf_ne hb] at hh
    refine ⟨?_, ?_, ?_⟩
    · have := loc_ne_of (l₁ := (b, 0)) (l₂ := (v, 0)) hh (by cancel)
      intro h; exact this (by rw [h])
    · have := loc_ne_of (l₁ := (b, 0)) (l₂ := (v', 0)) hh (by cancel)
      intro h; exact this (by rw [h])
    · intro hbb
      subst hbb
      rw [buf_ne hb] at hh
      have := loc_ne_of (l₁ := (b, 0)) (l₂ := (b, 0)) hh (by cancel)
      exact this rfl
  have hb : b ≠ 0 := by
    rintro rfl
    rw [sep_comm] at hm
    have := deq_null hm
    simp only [List.length_nil] at this
    omega
  rw [sep_comm] at hm
  obtain ⟨n1, n2, n3⟩ := hne0 hb hm
  have hout : m.cells (b, 1 + (L + H)) = none := by
    refine NotIn.sep (deq_notIn (v := v) hp n1 (Or.inr ?_) (by simp only; omega)) (deq_notIn (v := v2) hp n2 (Or.inl n3) (by simp only; omega)) _ hm
    simp only [List.length_nil]; omega
  unfold memcpy
  split
  · rfl
  · refine memmove_bad (j := H) hfit ?_
    rw [show 1 + L + H = 1 + (L + H) by omega]
    exact hout

end CC.Deq
