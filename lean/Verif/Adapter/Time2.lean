import Verif.Adapter.Time
/-!
# The time of the backends
-/
namespace CC.Adapter
open CC CC.Tac CC.Algo
variable {V α β : Type} {E : Types V} {k : Kind} {a b ty : Nat} {ws : List V} {R : HProp V} {p : Nat}

/-- the container `a` of kind `k` holds `ws`, and `p` credits are enough for its potential: they pay for the coming reallocations and for destroying the elements -/
def tRep (E : Types V) : Kind → Nat → Addr → List V → Nat → HProp V
  | .list, ty, a, ws, p => ∃ₛ s, ∃ₛ xs, ⌜CList.vals xs = ws ∧ 13 * ws.length ≤ p⌝ ∗ CList.isList a s ty xs
  | .vector, ty, a, ws, p => ∃ₛ b, ∃ₛ cap, ⌜5 * (2 * ws.length - cap) + 3 * ws.length ≤ p⌝ ∗
      Vec.isVec (nf := True) (T := fun ty => plainOps (E ty)) (ty := ty) (plainSpec (E ty)) a b cap ws
  | .deque, ty, a, ws, p => ∃ₛ b, ∃ₛ lo, ∃ₛ hi, ⌜5 * Deq.pot lo ws.length hi + 3 * ws.length ≤ p⌝ ∗
      Deq.isDeq (nf := True) (T := fun ty => plainOps (E ty)) (ty := ty) (plainSpec (E ty)) a b lo hi ws

theorem tRep_le {q : Nat} (h : p ≤ q) : tRep E k ty a ws p ⊢ₛ tRep E k ty a ws q := by
  cases k with
  | list =>
    unfold tRep
    xintro s xs h1
    xexists s, xs
    cancel
    exact ⟨h1.1, by omega⟩
  | vector =>
    unfold tRep
    xintro b cap h1
    xexists b, cap
    cancel
    omega
  | deque =>
    unfold tRep
    xintro b lo hi h1
    xexists b, lo, hi
    cancel
    omega

theorem tcreate (hty : ty ≠ 0) : Triple True emp ((k.impl E).create ty) (fun r => ⌜r ≠ 0⌝ ∗ tRep E k ty r [] 0) := by
  cases k with
  | list =>
    show Triple True emp (CList.create ty) _
    rw [← bind_pure (CList.create ty)]
    apply CList.create_spec hty
    · exact fun h => absurd trivial h
    · intro l s hl
      apply Triple.ret
      unfold tRep
      xexists s, []
      cancel
      exact ⟨rfl, by simp⟩
  | vector =>
    show Triple True emp (Vec.create ty) _
    rw [← bind_pure (Vec.create ty)]
    apply Vec.create_spec (T := fun ty => plainOps (E ty)) (e := plainSpec (E ty)) hty
    · exact fun h => absurd trivial h
    · intro l hl
      apply Triple.ret
      unfold tRep
      xexists 0, 0
      cancel
      simp
  | deque =>
    show Triple True emp (Deq.create ty) _
    refine Triple.post (Deq.create_spec (nf := True) (T := fun ty => plainOps (E ty)) (e := plainSpec (E ty)) hty) ?_
    intro r
    xintro hr
    have hr : r ≠ 0 := fun h => hr h trivial
    rw [if_neg hr]
    unfold tRep
    xexists 0, 0, 0
    cancel
    simp [Deq.pot]

theorem tcreate_cost : Cost ((k.impl E).create ty) 10 := by
  cases k with
  | list =>
    show Cost (CList.create ty) 10
    simp only [CList.create]
    cost
  | vector =>
    show Cost (Vec.create ty) 10
    simp only [Vec.create]
    cost
  | deque =>
    show Cost (Deq.create ty) 10
    simp only [Deq.create]
    cost

theorem tdestroy : PT (p + 19) (tRep E k ty a ws p) ((k.impl E).destroy a) (fun _ _ => emp) := by
  cases k with
  | list =>
    unfold tRep
    refine PT.ex_left fun s => PT.ex_left fun xs => PT.pure_left fun h => ?_
    refine PT.of (p := 0) (CList.C86_list_destroy (nf := True)) ?_ fun _ => ent_refl _
    have : xs.length = ws.length := by rw [← h.1]; simp
    omega
  | vector =>
    unfold tRep
    refine PT.ex_left fun b => PT.ex_left fun cap => PT.pure_left fun h => ?_
    exact PT.of (p := 0) (TripleC.of_within (Vec.destroy_time (nf := True) (T := fun ty => plainOps (E ty)) (plain_takes _) (Nat.le_refl _))) (by omega) fun _ => ent_refl _
  | deque =>
    unfold tRep
    refine PT.ex_left fun b => PT.ex_left fun lo => PT.ex_left fun hi => PT.pure_left fun h => ?_
    exact PT.of (p := 0) (TripleC.of_within (Deq.destroy_time (nf := True) (T := fun ty => plainOps (E ty)) (plain_takes _) (Nat.le_refl _))) (by omega) fun _ => ent_refl _

theorem tfront : PT (p + 6) (tRep E k ty a ws p) ((k.impl E).front a) (fun _ q => tRep E k ty a ws q) := by
  cases k with
  | list =>
    unfold tRep
    refine PT.ex_left fun s => PT.ex_left fun xs => PT.pure_left fun h => ?_
    refine PT.of (p := p) (CList.C68_list_front (nf := True)) (by omega) fun r => ?_
    xintro h1
    xexists s, xs
    cancel
  | vector =>
    unfold tRep
    refine PT.ex_left fun b => PT.ex_left fun cap => PT.pure_left fun h => ?_
    refine PT.of (p := p) (Vec.C68_vector_front (nf := True)) (by omega) fun r => ?_
    xintro h1
    xexists b, cap
    cancel
  | deque =>
    unfold tRep
    refine PT.ex_left fun b => PT.ex_left fun lo => PT.ex_left fun hi => PT.pure_left fun h => ?_
    refine PT.of (p := p) (Deq.C68_deque_front (nf := True)) (by omega) fun r => ?_
    xintro h1
    xexists b, lo, hi
    cancel

theorem tback : PT (p + 6) (tRep E k ty a ws p) ((k.impl E).back a) (fun _ q => tRep E k ty a ws q) := by
  cases k with
  | list =>
    unfold tRep
    refine PT.ex_left fun s => PT.ex_left fun xs => PT.pure_left fun h => ?_
    refine PT.of (p := p) (CList.C68_list_back (nf := True)) (by omega) fun r => ?_
    xintro h1
    xexists s, xs
    cancel
  | vector =>
    unfold tRep
    refine PT.ex_left fun b => PT.ex_left fun cap => PT.pure_left fun h => ?_
    refine PT.of (p := p) (Vec.C68_vector_back (nf := True)) (by omega) fun r => ?_
    xintro h1
    xexists b, cap
    cancel
  | deque =>
    unfold tRep
    refine PT.ex_left fun b => PT.ex_left fun lo => PT.ex_left fun hi => PT.pure_left fun h => ?_
    refine PT.of (p := p) (Deq.C68_deque_back (nf := True)) (by omega) fun r => ?_
    xintro h1
    xexists b, lo, hi
    cancel

theorem tempty : PT (p + 6) (tRep E k ty a ws p) ((k.impl E).empty a) (fun _ q => tRep E k ty a ws q) := by
  cases k with
  | list =>
    unfold tRep
    refine PT.ex_left fun s => PT.ex_left fun xs => PT.pure_left fun h => ?_
    refine PT.of (p := p) (CList.C68_list_empty (nf := True)) (by omega) fun r => ?_
    xintro h1
    xexists s, xs
    cancel
  | vector =>
    unfold tRep
    refine PT.ex_left fun b => PT.ex_left fun cap => PT.pure_left fun h => ?_
    refine PT.of (p := p) (Vec.C68_vector_empty (nf := True)) (by omega) fun r => ?_
    xintro h1
    xexists b, cap
    cancel
  | deque =>
    unfold tRep
    refine PT.ex_left fun b => PT.ex_left fun lo => PT.ex_left fun hi => PT.pure_left fun h => ?_
    refine PT.of (p := p) (Deq.C68_deque_empty (nf := True)) (by omega) fun r => ?_
    xintro h1
    xexists b, lo, hi
    cancel

theorem tsize (hk : k ≠ .list) : PT (p + 6) (tRep E k ty a ws p) ((k.impl E).size a) (fun _ q => tRep E k ty a ws q) := by
  cases k with
  | list => exact absurd rfl hk
  | vector =>
    unfold tRep
    refine PT.ex_left fun b => PT.ex_left fun cap => PT.pure_left fun h => ?_
    refine PT.of (p := p) (Vec.C68_vector_size (nf := True)) (by omega) fun r => ?_
    xintro h1
    xexists b, cap
    cancel
  | deque =>
    unfold tRep
    refine PT.ex_left fun b => PT.ex_left fun lo => PT.ex_left fun hi => PT.pure_left fun h => ?_
    refine PT.of (p := p) (Deq.C68_deque_size (nf := True)) (by omega) fun r => ?_
    xintro h1
    xexists b, lo, hi
    cancel

theorem tpushBack {l : Loc} {v : V} (hl : l.1 ≠ 0) :
    PT (p + 79) (tRep E k ty a ws p ∗ pts l (.obj (some v))) ((k.impl E).pushBack a l) (fun _ q => tRep E k ty a (ws ++ [v]) q ∗ pts l (.obj (some v))) := by
  cases k with
  | list =>
    unfold tRep
    rw [hex_sep]
    refine PT.ex_left fun s => ?_
    rw [hex_sep]
    refine PT.ex_left fun xs => ?_
    rw [sep_assoc]
    refine PT.pure_left fun h => ?_
    refine PT.of (p := p + 13) (CList.C68_list_push_back (v := v) hl ?_) (by omega) fun r => ?_
    · exact (Reads.pts).right
    xintro e he
    xexists s, xs ++ [e]
    cancel
    rw [← h.1, ← he] at *
    refine ⟨by simp, ?_⟩
    simp only [List.length_append, List.length_singleton]
    omega
  | vector =>
    unfold tRep
    rw [hex_sep]
    refine PT.ex_left fun b => ?_
    rw [hex_sep]
    refine PT.ex_left fun cap => ?_
    rw [sep_assoc]
    refine PT.pure_left fun h => ?_
    refine PT.fact (φ := ws.length ≤ cap) (fun F m hm => Vec.vec_cap (nf := True) (T := fun ty => plainOps (E ty)) (ty := ty) (e := plainSpec (E ty)) (v := a) (b := b) (R := pts l (.obj (some v)) ∗ F) (by rw [← sep_assoc]; exact hm)) fun hcap => ?_
    generalize hB : 6 + 3 + (if ws.length = cap then 16 + 3 * ws.length + 2 * ws.length else 0) = B
    have h1 := Vec.pushBack_time (nf := True) (T := fun ty => plainOps (E ty)) (e := plainSpec (E ty)) (v := a) (b := b) (cap := cap) (ws := ws) (value := l) (w := v) hl
      (Or.inl (plain_plain _)) (plain_takes _) (Nat.le_of_eq hB)
    rw [plain_cell] at h1
    have h2 := TripleC.of_within h1
    by_cases hc : ws.length = cap
    · rw [if_pos hc] at hB
      refine PT.of (p := p + 79 - B) h2 (by omega) fun r => ?_
      xintro b' cap' ws' h3
      obtain ⟨h3, h4, h5⟩ := h3.resolve_right (fun h => h.1 trivial)
      rw [h3]
      xexists b', cap'
      cancel
      rw [if_pos hc] at h4
      rw [List.length_append, List.length_singleton]
      unfold Vec.newCap at h4
      split at h4 <;> omega
    · rw [if_neg hc] at hB
      refine PT.of (p := p + 79 - B) h2 (by omega) fun r => ?_
      xintro b' cap' ws' h3
      obtain ⟨h3, h4, h5⟩ := h3.resolve_right (fun h => h.1 trivial)
      rw [h3]
      xexists b', cap'
      cancel
      rw [if_neg hc] at h4
      rw [List.length_append, List.length_singleton]
      omega
  | deque =>
    unfold tRep
    rw [hex_sep]
    refine PT.ex_left fun b => ?_
    rw [hex_sep]
    refine PT.ex_left fun lo => ?_
    rw [hex_sep]
    refine PT.ex_left fun hi => ?_
    rw [sep_assoc]
    refine PT.pure_left fun h => ?_
    generalize hB : 6 + 3 + (if hi = 0 then 17 + 3 * ws.length + 2 * ws.length else 0) = B
    have h1 := Deq.pushBack_time (nf := True) (T := fun ty => plainOps (E ty)) (e := plainSpec (E ty)) (v := a) (b := b) (lo := lo) (hi := hi) (ws := ws) (value := l) (w := v) hl
      (Or.inl (plain_plain _)) (plain_takes _) (Nat.le_of_eq hB)
    rw [plain_cell] at h1
    have h2 := TripleC.of_within h1
    by_cases hc : hi = 0
    · rw [if_pos hc] at hB
      have hle : ws.length ≤ Deq.pot lo ws.length hi := by unfold Deq.pot; omega
      refine PT.of (p := p + 79 - B) h2 (by omega) fun r => ?_
      xintro b' lo' hi' ws' h3
      obtain ⟨h3, h4, h5⟩ := h3.resolve_right (fun h => h.1 trivial)
      rw [h3]
      xexists b', lo', hi'
      cancel
      have := Deq.pot_grow_back hc (h5 hc).1 (h5 hc).2
      rw [List.length_append, List.length_singleton]
      omega
    · rw [if_neg hc] at hB
      refine PT.of (p := p + 79 - B) h2 (by omega) fun r => ?_
      xintro b' lo' hi' ws' h3
      obtain ⟨h3, h4, h5⟩ := h3.resolve_right (fun h => h.1 trivial)
      rw [h3]
      xexists b', lo', hi'
      cancel
      have := h4 (by omega)
      have : Deq.pot lo' (ws.length + 1) hi' ≤ Deq.pot lo ws.length hi + 10 := by unfold Deq.pot; omega
      rw [List.length_append, List.length_singleton]
      omega

theorem tpopBack : PT (p + 18) (tRep E k ty a ws p) ((k.impl E).popBack a) (fun _ q => tRep E k ty a ws.dropLast q) := by
  cases k with
  | list =>
    unfold tRep
    refine PT.ex_left fun s => PT.ex_left fun xs => PT.pure_left fun h => ?_
    refine PT.of (p := p) (CList.C68_list_pop_back (nf := True)) (by omega) fun r => ?_
    xexists s, xs.dropLast
    cancel
    refine ⟨by rw [← h.1, CList.vals, List.map_dropLast], ?_⟩
    rw [List.length_dropLast]
    omega
  | vector =>
    unfold tRep
    refine PT.ex_left fun b => PT.ex_left fun cap => PT.pure_left fun h => ?_
    refine PT.of (p := p) (TripleC.of_within (Vec.popBack_time (nf := True) (T := fun ty => plainOps (E ty)) (plain_takes _) (Nat.le_refl _))) (by omega) fun _ => ?_
    xexists b, cap
    cancel
    rw [List.length_dropLast]
    omega
  | deque =>
    unfold tRep
    refine PT.ex_left fun b => PT.ex_left fun lo => PT.ex_left fun hi => PT.pure_left fun h => ?_
    rcases List.eq_nil_or_concat ws with rfl | ⟨ws, w, rfl⟩
    · refine PT.of (p := p) (TripleC.of_within (Deq.popBack_nil_time (nf := True) (T := fun ty => plainOps (E ty)) (Nat.le_refl _))) (by omega) fun _ => ?_
      xexists b, lo, hi
      cancel
    · simp only [List.concat_eq_append, List.dropLast_concat] at h ⊢
      refine PT.of (p := p) (TripleC.of_within (Deq.popBack_time (nf := True) (T := fun ty => plainOps (E ty)) (plain_takes _) (Nat.le_refl _))) (by omega) fun _ => ?_
      xexists b, lo, hi + 1
      cancel
      rw [List.length_append, List.length_singleton] at h
      have : Deq.pot lo ws.length (hi + 1) ≤ Deq.pot lo (ws.length + 1) hi := by unfold Deq.pot; omega
      omega

theorem tpopFront {f : Addr → M V Unit} (hf : (k.impl E).popFront = some f) : PT (p + 18) (tRep E k ty a ws p) (f a) (fun _ q => tRep E k ty a ws.tail q) := by
  cases k with
  | list =>
    cases hf
    unfold tRep
    refine PT.ex_left fun s => PT.ex_left fun xs => PT.pure_left fun h => ?_
    refine PT.of (p := p) (CList.C68_list_pop_front (nf := True)) (by omega) fun r => ?_
    xexists s, xs.tail
    cancel
    refine ⟨by rw [← h.1, CList.vals, List.map_tail], ?_⟩
    rw [List.length_tail]
    omega
  | vector => cases hf
  | deque =>
    cases hf
    unfold tRep
    refine PT.ex_left fun b => PT.ex_left fun lo => PT.ex_left fun hi => PT.pure_left fun h => ?_
    cases ws with
    | nil =>
      refine PT.of (p := p) (TripleC.of_within (Deq.popFront_nil_time (nf := True) (T := fun ty => plainOps (E ty)) (Nat.le_refl _))) (by omega) fun _ => ?_
      xexists b, lo, hi
      cancel
    | cons w ws =>
      refine PT.of (p := p) (TripleC.of_within (Deq.popFront_time (nf := True) (T := fun ty => plainOps (E ty)) (plain_takes _) (Nat.le_refl _))) (by omega) fun _ => ?_
      xexists b, lo + 1, hi
      cancel
      rw [List.length_cons] at h
      have : Deq.pot (lo + 1) ws.length hi ≤ Deq.pot lo (ws.length + 1) hi := by unfold Deq.pot; omega
      rw [List.tail_cons]
      omega

theorem trange (hk : k ≠ .list) :
    PT (p + 2) (tRep E k ty a ws p) ((k.impl E).range a) (fun r q => ∃ₛ c, ∃ₛ F, ⌜q = p ∧ r = some (c, 0, ws.length) ∧
      ∀ ws' : List V, ws'.length = ws.length → ((seg c 0 ws' ∗ F) ⊢ₛ tRep E k ty a ws' p)⌝ ∗ seg c 0 ws ∗ F) := by
  cases k with
  | list => exact absurd rfl hk
  | vector =>
    unfold tRep
    refine PT.ex_left fun b => PT.ex_left fun cap => PT.pure_left fun h => ?_
    have h1 : Triple True (Vec.isVec (nf := True) (T := fun ty => plainOps (E ty)) (ty := ty) (plainSpec (E ty)) a b cap ws) ((Kind.vector.impl E).range a)
        (fun r => ∃ₛ c, ∃ₛ F, ⌜r = some (c, 0, ws.length) ∧
      ∀ ws' : List V, ws'.length = ws.length → ((seg c 0 ws' ∗ F) ⊢ₛ tRep E .vector ty a ws' p)⌝ ∗ seg c 0 ws ∗ F) := by
      show Triple True _ (do
        let p ← Vec.vbegin a
        let q ← Vec.vend a
        pure (some (aslots p.1 p.2, 0, q.2 - p.2))) _
      unfold Vec.isVec
      xintro hcap
      call Vec.vbegin_spec
      intro r
      xsub
      call Vec.vend_spec
      intro r
      xsub
      apply Triple.ret
      xexists aslots b 1, Vec.vhdr a b ws.length cap ty ∗ raws b (1 + ws.length) (cap - ws.length)
      have hl := fun ws : List V => live_seg (nf := True) (t := E ty) (b := b) (o := 1) (i := 0) (vs := ws)
      rw [Nat.add_zero] at hl
      rw [hl]
      cancel
      refine ⟨by simp, ?_⟩
      intro ws' hw
      unfold tRep Vec.isVec
      xexists b, cap
      rw [hw, ← hl]
      cancel
    refine PT.of (p := p) (TripleC.intro h1 (k := 2) ?_ (Le.refl _)) (by omega) fun r => ?_
    · show Cost (do
        let p ← Vec.vbegin a
        let q ← Vec.vend a
        pure (some (aslots p.1 p.2, 0, q.2 - p.2))) 2
      simp only [Vec.vbegin, Vec.vend]
      cost
    xintro c F hc
    xexists c, F
    cancel
  | deque =>
    unfold tRep
    refine PT.ex_left fun b => PT.ex_left fun lo => PT.ex_left fun hi => PT.pure_left fun h => ?_
    have h1 : Triple True (Deq.isDeq (nf := True) (T := fun ty => plainOps (E ty)) (ty := ty) (plainSpec (E ty)) a b lo hi ws) ((Kind.deque.impl E).range a)
        (fun r => ∃ₛ c, ∃ₛ F, ⌜r = some (c, 0, ws.length) ∧
      ∀ ws' : List V, ws'.length = ws.length → ((seg c 0 ws' ∗ F) ⊢ₛ tRep E .deque ty a ws' p)⌝ ∗ seg c 0 ws ∗ F) := by
      show Triple True _ (do
        let p ← Deq.dbegin a
        let q ← Deq.dend a
        pure (some (aslots p.1 p.2, 0, q.2 - p.2))) _
      unfold Deq.isDeq
      call Deq.dbegin_spec
      intro r
      xsub
      call Deq.dend_spec
      intro r
      xsub
      apply Triple.ret
      xexists aslots b (1 + lo), Deq.dhdr a b lo ws.length hi ty ∗ raws b 1 lo ∗ raws b (1 + lo + ws.length) hi
      have hl := fun ws : List V => live_seg (nf := True) (t := E ty) (b := b) (o := 1 + lo) (i := 0) (vs := ws)
      rw [Nat.add_zero] at hl
      rw [hl]
      cancel
      refine ⟨by simp, ?_⟩
      intro ws' hw
      unfold tRep Deq.isDeq
      xexists b, lo, hi
      rw [hw, ← hl]
      cancel
    refine PT.of (p := p) (TripleC.intro h1 (k := 2) ?_ (Le.refl _)) (by omega) fun r => ?_
    · show Cost (do
        let p ← Deq.dbegin a
        let q ← Deq.dend a
        pure (some (aslots p.1 p.2, 0, q.2 - p.2))) 2
      simp only [Deq.dbegin, Deq.dend]
      cost
    xintro c F hc
    xexists c, F
    cancel

end CC.Adapter
