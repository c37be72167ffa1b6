import Verif.Core.Sched
import Verif.Vec.Spec5
import Verif.Vec.Bugs
/-!
# Vectors when memory runs out: creating, copying and assigning
-/
namespace CC.Vec
open CC CC.Tac
variable {V W α β : Type} {T : Nat → Ops V} {ty : Nat} {e : ElemSpec False (T ty) W}
variable {v b cap v2 b2 cap2 : Nat} {ws ws2 : List W} {F : HProp V} {w : List Bool}

theorem q_begin {v : Nat} : Quiet (begin_ v : M V _) := by unfold begin_; quiet
theorem q_end {v : Nat} : Quiet (end_ v : M V _) := by unfold end_; quiet
theorem q_eos {v : Nat} : Quiet (eos v : M V _) := by unfold eos; quiet
theorem q_size {v : Nat} : Quiet (size v : M V _) := by
  have h1 := @q_begin V v; have h2 := @q_end V v
  unfold size; quiet
theorem q_capacity {v : Nat} : Quiet (capacity v : M V _) := by
  have h1 := @q_begin V v; have h2 := @q_eos V v
  unfold capacity; quiet
theorem q_available {v : Nat} : Quiet (available v : M V _) := by unfold available; quiet

theorem vavailable_spec {nf : Prop} {e : ElemSpec nf (T ty) W} : Triple nf (isVec e v b cap ws) (available v) (fun r => ⌜r = cap - ws.length⌝ ∗ isVec e v b cap ws) := by
  unfold isVec; xintro h; call (available_spec h); intro r; xsub; cancel
theorem vtype_spec {nf : Prop} {e : ElemSpec nf (T ty) W} : Triple nf (isVec e v b cap ws) (ldN (v, 4)) (fun r => ⌜r = ty⌝ ∗ isVec e v b cap ws) := by
  unfold isVec; xintro h; call ldTy; intro r; xsub; cancel
theorem vstart_spec {nf : Prop} {e : ElemSpec nf (T ty) W} : Triple nf (isVec e v b cap ws) (ldP (v, 1)) (fun r => ⌜r = (b, 1)⌝ ∗ isVec e v b cap ws) := by
  unfold isVec; xintro h; call ldStart; intro r; xsub; cancel
theorem vstType_spec {nf : Prop} {e : ElemSpec nf (T ty) W} : Triple nf (isVec e v b cap ws) (stN (v, 4) ty) (fun _ => isVec e v b cap ws) := by
  unfold isVec vhdr; xintro h; rw [← bind_pure (stN (v, 4) ty)]; step; apply Triple.ret; cancel

theorem vec_ok {nf : Prop} {e : ElemSpec nf (T ty) W} {h : Heap V} (hh : (isVec e v b cap ws ∗ F) h) : v ≠ 0 ∧ ws.length ≤ cap := by
  unfold isVec at hh
  rw [sep_assoc] at hh
  refine ⟨hdr_ne hh, ?_⟩
  have := (show _ ⊢ₛ ⌜ws.length ≤ cap⌝ ∗ (vhdr v b ws.length cap ty ∗ live e b 1 ws ∗ raws b (1 + ws.length) (cap - ws.length) ∗ F) by cancel) _ hh
  exact (hpure_sep_apply.1 this).1

theorem vecs_ne {nf : Prop} {e : ElemSpec nf (T ty) W} {h : Heap V} (hh : (isVec e v b cap ws ∗ isVec e v2 b2 cap2 ws2 ∗ F) h) : v ≠ v2 := by
  unfold isVec vhdr at hh
  have := loc_ne_of (l₁ := (v, 0)) (l₂ := (v2, 0)) hh (by
      xintro _ _
      cancel)
  intro h; exact this (by rw [h])

/-- a refused reallocation changes nothing -/
theorem realloc_refused {n : Nat} :
    On (false :: w) (isVec e v b cap ws ∗ F) (reallocateAndMove T v n) (fun r => ⌜r = true⌝ ∗ isVec e v b cap ws ∗ F) w := by
  refine On.fact (fun _ => vec_ok) fun ⟨hv, _⟩ => ?_
  unfold reallocateAndMove
  have hca : (cassert (v != 0) : M V Unit) = pure () := by unfold cassert; rw [if_pos (by simpa using hv)]
  rw [hca, pure_bind]
  refine On.read vsize_spec q_size ?_
  refine On.read vcapacity_spec q_capacity ?_
  refine On.bind On.refused fun r => On.pure_left ?_
  rintro rfl
  rw [if_pos rfl]
  exact On.ret (ent_pure_right rfl (ent_refl _))

/-- `reserve` does nothing if its request is refused -/
theorem reserve_refused {k : Nat} (hk : cap < k) :
    On (false :: w) (isVec e v b cap ws ∗ F) (reserve T v k) (fun _ => isVec e v b cap ws ∗ F) w := by
  refine On.fact (fun _ => vec_ok) fun ⟨hv, hc⟩ => ?_
  unfold reserve resize resizeWithValue
  rw [if_neg hv]
  refine On.read vcapacity_spec q_capacity ?_
  rw [if_neg (by omega), if_neg hv]
  refine On.read vsize_spec q_size ?_
  rw [if_pos (by omega)]
  refine On.read vsize_spec q_size ?_
  refine On.read vavailable_spec q_available ?_
  rw [if_pos (by omega)]
  refine On.bind realloc_refused fun r => On.pure_left ?_
  rintro rfl
  rw [if_pos rfl]
  exact On.ret (ent_refl _)

/-- a vector object whose allocation is granted -/
theorem create_granted (hty : ty ≠ 0) :
    On (true :: w) F (create ty) (fun r => ⌜r ≠ 0⌝ ∗ isVec e r 0 0 [] ∗ F) w := by
  unfold create
  rw [if_neg hty]
  refine On.bind On.granted fun r => On.ex fun j => On.pure_left fun hr => ?_
  rw [if_neg hr]
  have h1 : Triple False (blk r 4 ∗ arr r 1 ((List.range 4).map fun i => Val.num (j (i+1))) ∗ F) (do stP (r, 1) nullP; stP (r, 2) nullP; stP (r, 3) nullP; stN (r, 4) ty; pure r)
      (fun r => ⌜r ≠ 0⌝ ∗ isVec e r 0 0 [] ∗ F) := by
    simp only [arr, List.range_succ, List.range_zero, List.nil_append, List.cons_append, List.map_cons, List.map_nil]
    steps
    apply Triple.ret
    unfold isVec vhdr
    rw [buf_zero]
    simp only [List.length_nil, live_nil, Nat.sub_zero, Nat.add_zero, raws_zero]
    cancel
  refine On.quiet h1 ?_
  unfold stP stN
  quiet

/-- … or refused -/
theorem create_refused (hty : ty ≠ 0) : On (false :: w) F (create ty) (fun r => ⌜r = 0⌝ ∗ F) w := by
  unfold create
  rw [if_neg hty]
  refine On.bind On.refused fun r => On.pure_left ?_
  rintro rfl
  rw [if_pos rfl]
  exact On.ret (ent_pure_right rfl (ent_refl _))

/-- the object is allocated but not the storage: copying the elements goes to the NULL pointer -/
theorem copy_starved (hty : ty ≠ 0) (hws : ws ≠ []) : BadOn [true, false] (isVec e v b cap ws ∗ F) (copy T v) := by
  refine BadOn.fact (fun _ => vec_ok) fun ⟨hv, hc⟩ => ?_
  have hl := List.length_pos_iff.2 hws
  unfold copy
  rw [if_neg hv]
  refine BadOn.read vtype_spec .ldN ?_
  refine BadOn.bind (create_granted (e := e) hty) fun r => BadOn.pure_left fun hr => ?_
  rw [if_neg hr]
  refine BadOn.pre (P' := isVec e v b cap ws ∗ isVec e r 0 0 [] ∗ F) (by cancel) ?_
  refine BadOn.read vcapacity_spec q_capacity ?_
  refine BadOn.pre (P' := isVec e r 0 0 [] ∗ isVec e v b cap ws ∗ F) (by cancel) ?_
  refine BadOn.bind (reserve_refused (by omega)) fun _ => ?_
  refine BadOn.read vstart_spec .ldP ?_
  refine BadOn.pre (P' := isVec e v b cap ws ∗ isVec e r 0 0 [] ∗ F) (by cancel) ?_
  refine BadOn.read vstart_spec .ldP ?_
  refine BadOn.read vsize_spec q_size ?_
  exact BadOn.head (BadOn.memcpy_null (by omega))

theorem copy_refused (hty : ty ≠ 0) : On (false :: w) (isVec e v b cap ws ∗ F) (copy T v) (fun r => ⌜r = 0⌝ ∗ isVec e v b cap ws ∗ F) w := by
  refine On.fact (fun _ => vec_ok) fun ⟨hv, hc⟩ => ?_
  unfold copy
  rw [if_neg hv]
  refine On.read vtype_spec .ldN ?_
  refine On.bind (create_refused hty) fun r => On.pure_left ?_
  rintro rfl
  rw [if_pos rfl]
  exact On.ret (ent_pure_right rfl (ent_refl _))

/-- an array of elements is copied to the NULL pointer -/
theorem createFromArray_starved {values : Loc} {n : Nat} (hty : ty ≠ 0) (hv : values.1 ≠ 0) (hn : n ≠ 0) (e : ElemSpec False (T ty) W) :
    BadOn [true, false] F (createFromArray T ty values n) := by
  unfold createFromArray
  rw [if_neg (by simp [hv, hn])]
  refine BadOn.bind (create_granted (e := e) hty) fun r => BadOn.pure_left fun hr => ?_
  rw [if_neg hr]
  refine BadOn.bind (reserve_refused (by omega)) fun _ => ?_
  refine BadOn.read vstart_spec .ldP ?_
  exact BadOn.head (BadOn.memcpy_null hn)

theorem createFromArray_refused {values : Loc} {n : Nat} (hty : ty ≠ 0) : On [false] F (createFromArray T ty values n) (fun r => ⌜r = 0⌝ ∗ F) [] ∨
    (values.1 = 0 ∨ n = 0) := by
  by_cases h : values.1 = 0 ∨ n = 0
  · exact Or.inr h
  left
  unfold createFromArray
  rw [if_neg h]
  refine On.bind (create_refused hty) fun r => On.pure_left ?_
  rintro rfl
  rw [if_pos rfl]
  exact On.ret (ent_pure_right rfl (ent_refl _))

theorem two_facts {h : Heap V} (hh : (isVec e v b cap ws ∗ isVec e v2 b2 cap2 ws2) h) :
    v ≠ 0 ∧ v2 ≠ 0 ∧ v ≠ v2 ∧ ws.length ≤ cap ∧ ws2.length ≤ cap2 := by
  obtain ⟨h1, h2⟩ := vec_ok hh
  have h3 : v ≠ v2 := vecs_ne (F := emp) (by rw [sep_emp]; exact hh)
  rw [sep_comm] at hh
  obtain ⟨h4, h5⟩ := vec_ok hh
  exact ⟨h1, h4, h3, h2, h5⟩

theorem buf_fact {nf : Prop} {e : ElemSpec nf (T ty) W} {h : Heap V} (hh : (isVec e v 0 cap ws ∗ F) h) : cap = 0 := by
  unfold isVec vhdr at hh
  rw [buf_zero] at hh
  have := (show _ ⊢ₛ ⌜cap = 0⌝ ∗ (blk v 4 ∗ pts (v, 1) (.ptr 0 1) ∗ pts (v, 2) (.ptr 0 (1 + ws.length)) ∗ pts (v, 3) (.ptr 0 (1 + cap)) ∗ fld v 4 ty ∗
    ⌜ws.length ≤ cap⌝ ∗ live e 0 1 ws ∗ raws 0 (1 + ws.length) (cap - ws.length)) ∗ F by cancel) _ hh
  exact (hpure_sep_apply.1 this).1

/-- assigning a longer vector when no request is granted: the elements of the source are written to storage that is too small -/
theorem assign_starved (hp : e.Plain) (hfit : cap < ws2.length) : Ruined (isVec e v b cap ws ∗ isVec e v2 b2 cap2 ws2) (assign T v v2) := by
  refine Ruined.fact (fun _ => two_facts) fun ⟨hv, hv2, hne, hc, hc2⟩ => ?_
  unfold assign
  rw [if_neg (by simp [hv, hv2]), if_pos hne]
  refine Ruined.next clear_spec fun _ => ?_
  refine Ruined.weaken (P' := isVec e v2 b2 cap2 ws2 ∗ isVec e v b cap []) (by cancel) ?_
  refine Ruined.read vtype_spec ?_
  refine Ruined.weaken (P' := isVec e v b cap [] ∗ isVec e v2 b2 cap2 ws2) (by cancel) ?_
  refine Ruined.next vstType_spec fun _ => ?_
  refine Ruined.weaken (P' := isVec e v2 b2 cap2 ws2 ∗ isVec e v b cap []) (by cancel) ?_
  refine Ruined.read vcapacity_spec ?_
  refine Ruined.weaken (P' := isVec e v b cap [] ∗ isVec e v2 b2 cap2 ws2) (by cancel) ?_
  refine Ruined.bind (.of_on (n := 1) (reserve_refused (w := []) (by omega))) fun _ => ?_
  refine Ruined.read vstart_spec ?_
  refine Ruined.weaken (P' := isVec e v2 b2 cap2 ws2 ∗ isVec e v b cap []) (by cancel) ?_
  refine Ruined.read vstart_spec ?_
  refine Ruined.read vsize_spec ?_
  refine Ruined.head (.of_bad (n := 0) ?_)
  by_cases hb : b = 0
  · subst hb
    exact BadOn.memcpy_null (by omega)
  refine BadOn.memcpy (j := cap) hfit ?_
  intro h hh
  have hb2 : b2 ≠ 0 := by
    rintro rfl
    have := buf_fact hh
    omega
  have hne : v2 ≠ b ∧ b2 ≠ b ∧ v ≠ b := by
    unfold isVec vhdr at hh
    rw [buf_ne hb, buf_ne hb2] at hh
    refine ⟨?_, ?_, ?_⟩
    · have := loc_ne_of (l₁ := (v2, 0)) (l₂ := (b, 0)) hh (by cancel)
      intro h; exact this (by rw [h])
    · have := loc_ne_of (l₁ := (b2, 0)) (l₂ := (b, 0)) hh (by cancel)
      intro h; exact this (by rw [h])
    · have := loc_ne_of (l₁ := (v, 0)) (l₂ := (b, 0)) hh (by cancel)
      intro h; exact this (by rw [h])
  exact NotIn.sep (vec_notIn' hp hb2 (Ne.symm hne.2.1) (Ne.symm hne.1)) (vec_notIn hp hb hne.2.2 (by simp) rfl (by simp only; omega)) _ hh

/-- assigning a vector whose elements fit into the target's storage, when no request is granted: the target ends up empty -/
theorem assign_starved_fits (hp : e.Plain) (hfit : ws2.length ≤ cap) :
    Exhausted (isVec e v b cap ws ∗ isVec e v2 b2 cap2 ws2) (assign T v v2) (fun r => ⌜r = v⌝ ∗ isVec e v b cap [] ∗ isVec e v2 b2 cap2 ws2) := by
  refine Exhausted.fact (fun _ => two_facts) fun ⟨hv, hv2, hne, hc, hc2⟩ => ?_
  unfold assign
  rw [if_neg (by simp [hv, hv2]), if_pos hne]
  refine Exhausted.next clear_spec fun _ => ?_
  refine Exhausted.weaken (P' := isVec e v2 b2 cap2 ws2 ∗ isVec e v b cap []) (by cancel) ?_
  refine Exhausted.read vtype_spec ?_
  refine Exhausted.weaken (P' := isVec e v b cap [] ∗ isVec e v2 b2 cap2 ws2) (by cancel) ?_
  refine Exhausted.next vstType_spec fun _ => ?_
  refine Exhausted.weaken (P' := isVec e v2 b2 cap2 ws2 ∗ isVec e v b cap []) (by cancel) ?_
  refine Exhausted.read vcapacity_spec ?_
  refine Exhausted.weaken (P' := isVec e v b cap [] ∗ isVec e v2 b2 cap2 ws2) (by cancel) ?_
  have hres : Exhausted (isVec e v b cap [] ∗ isVec e v2 b2 cap2 ws2) (reserve T v cap2) (fun _ => isVec e v b cap [] ∗ isVec e v2 b2 cap2 ws2) := by
    by_cases h : cap < cap2
    · exact .of_on (n := 1) (reserve_refused (w := []) h)
    · unfold reserve
      rw [if_neg hv]
      refine Exhausted.read vcapacity_spec ?_
      rw [if_pos (by omega)]
      exact .of_triple (Triple.ret (ent_refl _))
  refine Exhausted.bind hres fun _ => ?_
  refine Exhausted.read vstart_spec ?_
  refine Exhausted.weaken (P' := isVec e v2 b2 cap2 ws2 ∗ isVec e v b cap []) (by cancel) ?_
  refine Exhausted.read vstart_spec ?_
  refine Exhausted.read vsize_spec (.of_triple ?_)
  unfold isVec
  have hs := raws_append (V := V) (b := b) (i := 1) (m := ws2.length) (n := cap - ws2.length)
  rw [Nat.add_sub_cancel' hfit] at hs
  xintro h1 h2
  simp only [List.length_nil, Nat.sub_zero, Nat.add_zero, live_nil]
  rw [hs]
  call (overwrite_raw hp (b := b2) (i := 1) (c := b) (j := 1) (ws := ws2))
  intro _
  apply Triple.ret
  cancel

end CC.Vec
