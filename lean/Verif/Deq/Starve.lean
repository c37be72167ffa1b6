import Verif.Core.Sched
import Verif.Deq.Spec3
/-!
# Deques when memory runs out: creating, copying and assigning
-/
namespace CC.Deq
open CC CC.Tac
open CC.Vec (nullP buf_zero buf_ne overwrite_raw)
variable {V W α β : Type} {T : Nat → Ops V} {ty : Nat} {e : ElemSpec False (T ty) W}
variable {v b lo hi v2 b2 lo2 hi2 : Nat} {ws ws2 : List W} {F : HProp V} {w : List Bool}

theorem q_begin {v : Nat} : Quiet (begin_ v : M V _) := by unfold begin_; quiet
theorem q_end {v : Nat} : Quiet (end_ v : M V _) := by unfold end_; quiet
theorem q_eos {v : Nat} : Quiet (eos v : M V _) := by unfold eos; quiet
theorem q_sos {v : Nat} : Quiet (sos v : M V _) := by unfold sos; quiet
theorem q_dbegin {v : Nat} : Quiet (dbegin v : M V _) := by
  have h1 := @q_begin V v
  unfold dbegin; quiet
theorem q_dend {v : Nat} : Quiet (dend v : M V _) := by
  have h1 := @q_end V v
  unfold dend; quiet
theorem q_size {v : Nat} : Quiet (size v : M V _) := by
  have h1 := @q_begin V v; have h2 := @q_end V v
  unfold size; quiet
theorem q_capacity {v : Nat} : Quiet (capacity v : M V _) := by
  have h1 := @q_sos V v; have h2 := @q_eos V v
  unfold capacity; quiet
theorem q_available {v : Nat} : Quiet (available v : M V _) := by unfold available availableStart availableEnd; quiet

/-- a refused reallocation changes nothing -/
theorem realloc_refused {n : Nat} :
    On (false :: w) (isDeq e v b lo hi ws ∗ F) (reallocateAndMove T v n) (fun r => ⌜r = true⌝ ∗ isDeq e v b lo hi ws ∗ F) w := by
  refine On.fact (fun _ => deq_ne) fun hv => ?_
  unfold reallocateAndMove
  have hca : (cassert (v != 0) : M V Unit) = pure () := by unfold cassert; rw [if_pos (by simpa using hv)]
  rw [hca, pure_bind]
  refine On.read (lift size_spec) q_size ?_
  refine On.read (lift capacity_spec) q_capacity ?_
  refine On.bind On.refused fun r => On.pure_left ?_
  rintro rfl
  rw [if_pos rfl]
  exact On.ret (ent_pure_right rfl (ent_refl _))

/-- `__reserve` does nothing if its request is refused -/
theorem reserve_refused {k : Nat} (hk : lo + ws.length + hi < k) :
    On (false :: w) (isDeq e v b lo hi ws ∗ F) (reserve T v k) (fun _ => isDeq e v b lo hi ws ∗ F) w := by
  refine On.fact (fun _ => deq_ne) fun hv => ?_
  unfold reserve resize resizeWithValue
  have hca : (cassert (v != 0) : M V Unit) = pure () := by unfold cassert; rw [if_pos (by simpa using hv)]
  rw [hca, pure_bind]
  refine On.read (lift capacity_spec) q_capacity ?_
  rw [if_pos (by omega), if_neg hv]
  refine On.read (lift size_spec) q_size ?_
  rw [if_pos (by omega)]
  refine On.read (lift size_spec) q_size ?_
  refine On.read (lift available_spec) q_available ?_
  rw [if_pos (by omega)]
  refine On.bind realloc_refused fun r => On.pure_left ?_
  rintro rfl
  rw [if_pos rfl]
  exact On.ret (ent_refl _)

/-- a deque object whose allocation is granted -/
theorem create_granted (hty : ty ≠ 0) :
    On (true :: w) F (create ty) (fun r => ⌜r ≠ 0⌝ ∗ isDeq e r 0 0 0 [] ∗ F) w := by
  unfold create
  rw [if_neg hty]
  refine On.bind On.granted fun r => On.ex fun j => On.pure_left fun hr => ?_
  rw [if_neg hr]
  have h1 : Triple False (blk r 5 ∗ arr r 1 ((List.range 5).map fun i => Val.num (j (i+1))) ∗ F)
      (do stP (r, 1) nullP; stP (r, 2) nullP; stP (r, 3) nullP; stP (r, 4) nullP; stN (r, 5) ty; pure r)
      (fun r => ⌜r ≠ 0⌝ ∗ isDeq e r 0 0 0 [] ∗ F) := by
    simp only [arr, List.range_succ, List.range_zero, List.nil_append, List.cons_append, List.map_cons, List.map_nil]
    steps
    apply Triple.ret
    unfold isDeq dhdr
    rw [buf_zero]
    simp only [List.length_nil, live_nil, Nat.add_zero, raws_zero]
    cancel
  refine On.quiet h1 ?_
  unfold stP stN
  quiet

/-- … or refused -/
theorem create_refused (hty : ty ≠ 0) : On (false :: w) F (create ty) (fun r => ⌜r = 0⌝ ∗ F) w := by
  unfold create
  rw [if_neg hty]
  refine On.bind On.refused fun r => On.pure_left ?_
  rintro rfl
  rw [if_pos rfl]
  exact On.ret (ent_pure_right rfl (ent_refl _))

/-- the object is allocated but not the storage: copying the elements goes to the NULL pointer -/
theorem copy_starved (hty : ty ≠ 0) (hws : ws ≠ []) : BadOn [true, false] (isDeq e v b lo hi ws ∗ F) (copy T v) := by
  refine BadOn.fact (fun _ => deq_ne) fun hv => ?_
  have hl := List.length_pos_iff.2 hws
  unfold copy
  rw [if_neg hv]
  refine BadOn.read (lift ldTy) .ldN ?_
  refine BadOn.bind (create_granted (e := e) hty) fun r => BadOn.pure_left fun hr => ?_
  rw [if_neg hr]
  refine BadOn.pre (P' := isDeq e v b lo hi ws ∗ isDeq e r 0 0 0 [] ∗ F) (by cancel) ?_
  refine BadOn.read (lift capacity_spec) q_capacity ?_
  refine BadOn.pre (P' := isDeq e r 0 0 0 [] ∗ isDeq e v b lo hi ws ∗ F) (by cancel) ?_
  refine BadOn.bind (reserve_refused (by simp only [List.length_nil]; omega)) fun _ => ?_
  refine BadOn.read (lift ldStart) .ldP ?_
  refine BadOn.pre (P' := isDeq e v b lo hi ws ∗ isDeq e r 0 0 0 [] ∗ F) (by cancel) ?_
  refine BadOn.read (lift ldStart) .ldP ?_
  refine BadOn.read (lift size_spec) q_size ?_
  exact BadOn.head (BadOn.memcpy_null (by omega))

theorem copy_refused (hty : ty ≠ 0) : On (false :: w) (isDeq e v b lo hi ws ∗ F) (copy T v) (fun r => ⌜r = 0⌝ ∗ isDeq e v b lo hi ws ∗ F) w := by
  refine On.fact (fun _ => deq_ne) fun hv => ?_
  unfold copy
  rw [if_neg hv]
  refine On.read (lift ldTy) .ldN ?_
  refine On.bind (create_refused hty) fun r => On.pure_left ?_
  rintro rfl
  rw [if_pos rfl]
  exact On.ret (ent_pure_right rfl (ent_refl _))

/-- an array of elements is copied to the NULL pointer -/
theorem createFrom_starved {values : Loc} {n : Nat} (hty : ty ≠ 0) (hv : values.1 ≠ 0) (hn : n ≠ 0) (e : ElemSpec False (T ty) W) :
    BadOn [true, false] F (createFrom T ty values n) := by
  unfold createFrom
  rw [if_neg (by simp [hv, hn, hty])]
  refine BadOn.bind (create_granted (e := e) hty) fun r => BadOn.pure_left fun hr => ?_
  rw [if_neg hr]
  refine BadOn.bind (reserve_refused (by simp only [List.length_nil]; omega)) fun _ => ?_
  refine BadOn.read (lift ldStart) .ldP ?_
  exact BadOn.head (BadOn.memcpy_null hn)

theorem createFrom_refused {values : Loc} {n : Nat} : On (false :: w) F (createFrom T ty values n) (fun r => ⌜r = 0⌝ ∗ F) w ∨
    (ty = 0 ∨ values.1 = 0 ∨ n = 0) := by
  by_cases h : ty = 0 ∨ values.1 = 0 ∨ n = 0
  · exact Or.inr h
  left
  unfold createFrom
  rw [if_neg h]
  refine On.bind (create_refused (by omega)) fun r => On.pure_left ?_
  rintro rfl
  rw [if_pos rfl]
  exact On.ret (ent_pure_right rfl (ent_refl _))

theorem two_facts {h : Heap V} (hh : (isDeq e v b lo hi ws ∗ isDeq e v2 b2 lo2 hi2 ws2) h) : v ≠ 0 ∧ v2 ≠ 0 ∧ v ≠ v2 := by
  have h1 := deq_ne hh
  have h2 := deqs_ne hh
  rw [sep_comm] at hh
  exact ⟨h1, deq_ne hh, h2⟩

/-- assigning when no request is granted, if the elements do not fit behind the place where the cleared target starts -/
theorem assign_starved (hp : e.Plain) (hc : lo + ws.length + hi < lo2 + ws2.length + hi2) (hfit : clearHi lo hi ws < ws2.length) :
    Ruined (isDeq e v b lo hi ws ∗ isDeq e v2 b2 lo2 hi2 ws2) (assign T v v2) := by
  refine Ruined.fact (fun _ => two_facts) fun ⟨hv, hv2, hne⟩ => ?_
  unfold assign
  rw [if_neg (by simp [hv, hv2]), if_pos hne]
  refine Ruined.next clear_any fun _ => ?_
  have hcs := clear_sum (lo := lo) (hi := hi) (ws := ws)
  generalize clearLo lo hi ws = L at *
  generalize clearHi lo hi ws = H at *
  refine Ruined.weaken (P' := isDeq e v2 b2 lo2 hi2 ws2 ∗ isDeq e v b L H []) (by cancel) ?_
  refine Ruined.read (lift ldTy) ?_
  refine Ruined.weaken (P' := isDeq e v b L H [] ∗ isDeq e v2 b2 lo2 hi2 ws2) (by cancel) ?_
  refine Ruined.next stTy_spec fun _ => ?_
  refine Ruined.weaken (P' := isDeq e v2 b2 lo2 hi2 ws2 ∗ isDeq e v b L H []) (by cancel) ?_
  refine Ruined.read (lift capacity_spec) ?_
  refine Ruined.weaken (P' := isDeq e v b L H [] ∗ isDeq e v2 b2 lo2 hi2 ws2) (by cancel) ?_
  refine Ruined.bind (.of_on (n := 1) (reserve_refused (w := []) (by simp only [List.length_nil]; omega))) fun _ => ?_
  refine Ruined.read (lift ldStart) ?_
  refine Ruined.weaken (P' := isDeq e v2 b2 lo2 hi2 ws2 ∗ isDeq e v b L H []) (by cancel) ?_
  refine Ruined.read (lift ldStart) ?_
  refine Ruined.read (lift size_spec) ?_
  refine Ruined.head (.of_bad (n := 0) ?_)
  by_cases hb : b = 0
  · subst hb
    exact BadOn.memcpy_null (by omega)
  refine BadOn.memcpy (j := H) hfit ?_
  intro h hh
  have hb2 : b2 ≠ 0 := by
    rintro rfl
    have := deq_null hh
    omega
  have hne : v2 ≠ b ∧ b2 ≠ b ∧ v ≠ b := by
    unfold isDeq dhdr at hh
    rw [buf_ne hb, buf_ne hb2] at hh
    refine ⟨?_, ?_, ?_⟩
    · have := loc_ne_of (l₁ := (v2, 0)) (l₂ := (b, 0)) hh (by cancel)
      intro h; exact this (by rw [h])
    · have := loc_ne_of (l₁ := (b2, 0)) (l₂ := (b, 0)) hh (by cancel)
      intro h; exact this (by rw [h])
    · have := loc_ne_of (l₁ := (v, 0)) (l₂ := (b, 0)) hh (by cancel)
      intro h; exact this (by rw [h])
  exact NotIn.sep (deq_notIn hp (Ne.symm hne.1) (Or.inl (Ne.symm hne.2.1)) (by simp only; omega))
    (deq_notIn hp (Ne.symm hne.2.2) (Or.inr (by simp only [List.length_nil]; omega)) (by simp only; omega)) _ hh

/-- assigning when no request is granted, if they do: the target ends up empty -/
theorem assign_starved_fits (hp : e.Plain) (hfit : ws2.length ≤ clearHi lo hi ws) :
    Exhausted (isDeq e v b lo hi ws ∗ isDeq e v2 b2 lo2 hi2 ws2) (assign T v v2)
      (fun r => ⌜r = v⌝ ∗ isDeq e v b (clearLo lo hi ws) (clearHi lo hi ws) [] ∗ isDeq e v2 b2 lo2 hi2 ws2) := by
  refine Exhausted.fact (fun _ => two_facts) fun ⟨hv, hv2, hne⟩ => ?_
  unfold assign
  rw [if_neg (by simp [hv, hv2]), if_pos hne]
  refine Exhausted.next clear_any fun _ => ?_
  generalize clearLo lo hi ws = L at *
  generalize clearHi lo hi ws = H at *
  refine Exhausted.weaken (P' := isDeq e v2 b2 lo2 hi2 ws2 ∗ isDeq e v b L H []) (by cancel) ?_
  refine Exhausted.read (lift ldTy) ?_
  refine Exhausted.weaken (P' := isDeq e v b L H [] ∗ isDeq e v2 b2 lo2 hi2 ws2) (by cancel) ?_
  refine Exhausted.next stTy_spec fun _ => ?_
  refine Exhausted.weaken (P' := isDeq e v2 b2 lo2 hi2 ws2 ∗ isDeq e v b L H []) (by cancel) ?_
  refine Exhausted.read (lift capacity_spec) ?_
  refine Exhausted.weaken (P' := isDeq e v b L H [] ∗ isDeq e v2 b2 lo2 hi2 ws2) (by cancel) ?_
  have hres : Exhausted (isDeq e v b L H [] ∗ isDeq e v2 b2 lo2 hi2 ws2) (reserve T v (lo2 + ws2.length + hi2)) (fun _ => isDeq e v b L H [] ∗ isDeq e v2 b2 lo2 hi2 ws2) := by
    by_cases h : L + H < lo2 + ws2.length + hi2
    · exact .of_on (n := 1) (reserve_refused (w := []) (by simp only [List.length_nil]; omega))
    · exact .of_triple (Triple.frame (reserve_enough (by simp only [List.length_nil]; omega)))
  refine Exhausted.bind hres fun _ => ?_
  refine Exhausted.read (lift ldStart) ?_
  refine Exhausted.weaken (P' := isDeq e v2 b2 lo2 hi2 ws2 ∗ isDeq e v b L H []) (by cancel) ?_
  refine Exhausted.read (lift ldStart) ?_
  refine Exhausted.read (lift size_spec) (.of_triple ?_)
  unfold isDeq
  have hs := raws_append (V := V) (b := b) (i := 1 + L) (m := ws2.length) (n := H - ws2.length)
  rw [Nat.add_sub_cancel' hfit] at hs
  simp only [List.length_nil, Nat.add_zero, live_nil]
  rw [hs]
  call (overwrite_raw hp (b := b2) (i := 1 + lo2) (c := b) (j := 1 + L) (ws := ws2))
  intro _
  apply Triple.ret
  cancel

end CC.Deq
