import Verif.Deq.History
import Verif.Props.CVector
/-!
# Properties C24, C25: `c_deque`

`isDeq e v b lo hi ws` (Verif/Deq/Rep.lean): the heap fragment is exactly a deque object `v` holding the values `ws` in storage block `b`, with `lo` unused
slots in front of the elements and `hi` behind them; element number `i` lives at `(b, 1 + lo + i)`.  For `Triple`, `Bad` and element types see Props/CVector.lean.
-/
namespace CC.Deq
open CC CC.Tac
open CC.Vec (intTy arg arg_cell arg_null plain_live)
variable {V W : Type} {nf : Prop} {T : Nat → Ops V} {ty : Nat} {e : ElemSpec nf (T ty) W}
variable {v b lo hi : Nat} {ws : List W} {R : HProp V}

/-- a client program that makes a deque of `n` default elements with `j` unused slots behind them -/
def mk (T : Nat → Ops V) (ty n j : Nat) : M V Addr := do
  let v ← create ty
  resize T v (n + j)
  shrinkToFit T v
  resize T v n
  pure v

theorem mk_spec {e : ElemSpec True (T ty) W} (hp : e.Plain) (hty : ty ≠ 0) (n j : Nat) :
    Triple True emp (mk T ty n j) (fun r => ∃ₛ b, isDeq e r b 0 j (List.replicate n e.dflt)) := by
  unfold mk
  call (create_spec (e := e) hty)
  intro v
  xintro hv
  rw [if_neg (fun h => hv h trivial)]
  have h1 := resize_any (e := e) (v := v) (b := 0) (lo := 0) (hi := 0) (ws := []) (count := n + j) (value := (0, 0)) (w := e.dflt) (Or.inl hp)
  rw [arg_null rfl] at h1
  refine Triple.bind (Q := fun _ => ∃ₛ b lo hi, isDeq e v b lo hi (List.replicate (n + j) e.dflt)) ?_ ?_
  · unfold resize
    call h1
    · rfl
    intro _
    xintro b' lo' hi' ws' h2 h3
    obtain ⟨h3, _⟩ := h2.1.resolve_right (fun h => h.1 trivial)
    simp at h3
    subst h3
    xexists b', lo', hi'
    cancel
  intro _
  xintro b lo hi
  call (shrinkToFit_spec (e := e) (v := v) (b := b) (lo := lo) (hi := hi) (ws := List.replicate (n + j) e.dflt) (Or.inl hp))
  intro _
  xintro b' lo' hi' h
  obtain ⟨rfl, rfl⟩ := h.resolve_right (fun h => h.1 trivial)
  have h2 := resize_shrink (e := e) (v := v) (b := b') (lo := 0) (hi := 0) (X := List.replicate n e.dflt) (Y := List.replicate j e.dflt) (value := (0, 0))
  rw [List.replicate_append_replicate, List.length_replicate, List.length_replicate, Nat.zero_add] at h2
  refine Triple.bind (Q := fun _ => isDeq e v b' 0 j (List.replicate n e.dflt)) h2 ?_
  intro _
  apply Triple.ret
  xexists b'
  rw [sep_emp]
  exact ent_refl _

/-- Non-vacuity: the API reaches memories that consist exactly of two deques with `n1`, `n2` default elements and `j1`, `j2` unused slots behind them. -/
theorem exists_deqs (e : ElemSpec True (T ty) W) (hp : e.Plain) (hty : ty ≠ 0) (n1 j1 n2 j2 : Nat) :
    ∃ (m : Mem V) (v b v2 b2 : Addr), (∀ t, m.orc t ≠ 0) ∧
      (isDeq e v b 0 j1 (List.replicate n1 e.dflt) ∗ isDeq e v2 b2 0 j2 (List.replicate n2 e.dflt)) m.cells := by
  have ht : Triple True emp (do
        let v ← mk T ty n1 j1
        let v2 ← mk T ty n2 j2
        pure (v, v2)) (fun r => ∃ₛ b b2, isDeq e r.1 b 0 j1 (List.replicate n1 e.dflt) ∗ isDeq e r.2 b2 0 j2 (List.replicate n2 e.dflt)) := by
    call (mk_spec (e := e) hp hty n1 j1)
    intro v
    xintro b
    call (mk_spec (e := e) hp hty n2 j2)
    intro v2
    xintro b2
    apply Triple.ret
    dsimp only
    xexists b, b2
    cancel
  obtain ⟨m, ho, hm⟩ := exists_array ([] : List V) (fun _ => 1)
  obtain ⟨r, m', _, ho', hm'⟩ := ht.run (F := emp) (s := m) (fun _ t => by rw [ho]; simp) (by rw [sep_emp]; exact hm)
  rw [sep_emp] at hm'
  obtain ⟨b, b2, hm'⟩ := hm'
  exact ⟨m', r.1, b, r.2, b2, by rw [ho', ho]; simp, hm'⟩

/-- Non-vacuity: a deque of any values, made by `c_deque_create_from` -/
theorem exists_deq (t : Ty V) (ty : Nat) (hty : ty ≠ 0) (vs : List V) (hvs : vs ≠ []) :
    ∃ (m : Mem V) (v b lo hi : Addr), (∀ t, m.orc t ≠ 0) ∧
      (isDeq (T := fun _ => plainOps t) (ty := ty) (plainSpec (nf := True) t) v b lo hi vs ∗ live (plainSpec (nf := True) t) 1 1 vs) m.cells := by
  obtain ⟨m, ho, hm⟩ := exists_array vs (fun _ => 1)
  obtain ⟨r, m', _, ho', hm'⟩ := (createFrom_spec (T := fun _ => plainOps t) (ty := ty) (e := plainSpec t) (ws := vs) (vb := 1) (vi := 1)
    (plain_plain t) hty (by omega) hvs).run (F := emp) (s := m) (fun _ t => by rw [ho]; simp) (by rw [sep_emp]; exact plain_live _ hm)
  rw [sep_emp, sep_comm, hex_sep] at hm'
  obtain ⟨b, hm'⟩ := hm'
  rw [hex_sep] at hm'
  obtain ⟨lo, hm'⟩ := hm'
  rw [hex_sep] at hm'
  obtain ⟨hi, hm'⟩ := hm'
  exact ⟨m', r, b, lo, hi, by rw [ho', ho]; simp, hm'⟩

example : ∃ (m : Mem Nat) (v b lo hi : Addr),
    (isDeq (T := fun _ => plainOps intTy) (ty := 1) (plainSpec (nf := True) intTy) v b lo hi [3, 1, 2] ∗ live (plainSpec (nf := True) intTy) 1 1 [3, 1, 2]) m.cells := by
  obtain ⟨m, v, b, lo, hi, _, hm⟩ := exists_deq (V := Nat) intTy 1 (by simp) [3, 1, 2] (by simp)
  exact ⟨m, v, b, lo, hi, hm⟩

/-- create_from copies an array -/
theorem C24_create_from {e : ElemSpec True (T ty) W} {vb vi : Nat} (hp : e.Plain) (hty : ty ≠ 0) (hvb : vb ≠ 0) (hws : ws ≠ []) :
    Triple True (live e vb vi ws) (createFrom T ty (vb, vi) ws.length)
      (fun r => live e vb vi ws ∗ ∃ₛ b' lo' hi', isDeq e r b' lo' hi' ws) := createFrom_spec hp hty hvb hws

/-! ## C24 edits -/

/-- push_back appends a copy of the value; if there is room behind the elements, in place; any allocator: if there is none, the deque may stay as it was -/
theorem C24_push_back {value : Loc} {w : W} (hv0 : value.1 ≠ 0) (hp : e.Plain ∨ ws = [] ∨ 0 < hi) :
    Triple nf (isDeq e v b lo hi ws ∗ cell e value w) (pushBack T v value)
      (fun _ => ∃ₛ b' lo' hi' ws', ⌜(ws' = ws ++ [w] ∧ (0 < hi → b' = b ∧ lo' = lo ∧ hi' + 1 = hi)) ∨ (¬ nf ∧ hi = 0 ∧ ws' = ws ∧ b' = b ∧ lo' = lo ∧ hi' = hi)⌝ ∗
        isDeq e v b' lo' hi' ws' ∗ cell e value w) := by
  refine Triple.post (pushBack_spec hv0 hp) ?_
  intro _
  xintro b' lo' hi' ws' h
  xexists b', lo', hi', ws'
  cancel

theorem C24_push_front {value : Loc} {w : W} (hv0 : value.1 ≠ 0) (hp : e.Plain ∨ ws = [] ∨ 0 < lo) :
    Triple nf (isDeq e v b lo hi ws ∗ cell e value w) (pushFront T v value)
      (fun _ => ∃ₛ b' lo' hi' ws', ⌜(ws' = w :: ws ∧ (0 < lo → b' = b ∧ lo' + 1 = lo ∧ hi' = hi)) ∨ (¬ nf ∧ lo = 0 ∧ ws' = ws ∧ b' = b ∧ lo' = lo ∧ hi' = hi)⌝ ∗
        isDeq e v b' lo' hi' ws' ∗ cell e value w) := by
  refine Triple.post (pushFront_spec hv0 hp) ?_
  intro _
  xintro b' lo' hi' ws' h
  xexists b', lo', hi', ws'
  cancel

/-- push_back and push_front on plain data when allocation never fails -/
theorem C24_push_back_nofail {e : ElemSpec True (T ty) W} (hp : e.Plain) {value : Loc} {w : W} (hv0 : value.1 ≠ 0) :
    Triple True (isDeq e v b lo hi ws ∗ cell e value w) (pushBack T v value)
      (fun _ => ∃ₛ b' lo' hi', isDeq e v b' lo' hi' (ws ++ [w]) ∗ cell e value w) := by
  refine Triple.post (C24_push_back hv0 (Or.inl hp)) ?_
  intro _
  xintro b' lo' hi' ws' h
  obtain ⟨rfl, _⟩ := h.resolve_right (fun h => h.1 trivial)
  xexists b', lo', hi'
  cancel

theorem C24_push_front_nofail {e : ElemSpec True (T ty) W} (hp : e.Plain) {value : Loc} {w : W} (hv0 : value.1 ≠ 0) :
    Triple True (isDeq e v b lo hi ws ∗ cell e value w) (pushFront T v value)
      (fun _ => ∃ₛ b' lo' hi', isDeq e v b' lo' hi' (w :: ws) ∗ cell e value w) := by
  refine Triple.post (C24_push_front hv0 (Or.inl hp)) ?_
  intro _
  xintro b' lo' hi' ws' h
  obtain ⟨rfl, _⟩ := h.resolve_right (fun h => h.1 trivial)
  xexists b', lo', hi'
  cancel

theorem C24_pop_back {w : W} : Triple nf (isDeq e v b lo hi (ws ++ [w])) (popBack T v) (fun _ => isDeq e v b lo (hi + 1) ws) := popBack_spec
theorem C24_pop_front {w : W} : Triple nf (isDeq e v b lo hi (w :: ws)) (popFront T v) (fun _ => isDeq e v b (lo + 1) hi ws) := popFront_spec
theorem C24_pop_back_empty : Triple nf (isDeq e v b lo hi []) (popBack T v) (fun _ => isDeq e v b lo hi []) := popBack_nil
theorem C24_pop_front_empty : Triple nf (isDeq e v b lo hi []) (popFront T v) (fun _ => isDeq e v b lo hi []) := popFront_nil

/-- insert_n puts `count` copies in front of the position and returns the position of the first of them; in the same storage if there is enough room in front and
behind together.  Any allocator: without enough room nothing may happen and end is returned. -/
theorem C24_insert_n {X Y : List W} {count : Nat} {value : Loc} {w : W} (hv0 : value.1 ≠ 0) (hp : e.Plain ∨ X ++ Y = [] ∨ count ≤ lo + hi) :
    Triple nf (isDeq e v b lo hi (X ++ Y) ∗ cell e value w) (insertN T v (b, 1 + lo + X.length) count value)
      (fun r => ∃ₛ b' lo' hi' ws',
        ⌜(ws' = X ++ List.replicate count w ++ Y ∧ r = (b', 1 + lo' + X.length) ∧ (count ≤ lo + hi → b' = b ∧ lo' + count + hi' = lo + hi)) ∨
         (¬ nf ∧ lo + hi < count ∧ ws' = X ++ Y ∧ b' = b ∧ lo' = lo ∧ hi' = hi ∧ r = (b', 1 + lo' + ws'.length))⌝ ∗
        isDeq e v b' lo' hi' ws' ∗ cell e value w) := by
  refine Triple.post (insertN_spec hv0 hp) ?_
  intro r
  xintro b' lo' hi' ws' h
  xexists b', lo', hi', ws'
  cancel
  obtain ⟨h1, h2⟩ := h
  by_cases hc : count = 0
  · subst hc
    simp only [List.replicate_zero, List.append_nil] at h1 h2 ⊢
    rcases h2 with ⟨h2, h3⟩ | ⟨_, h, _⟩
    · rcases h1 with ⟨_, h1⟩ | ⟨_, h, _⟩
      · exact Or.inl ⟨h2, h3, h1⟩
      · omega
    · omega
  have hne : X ++ List.replicate count w ++ Y ≠ X ++ Y := by
    intro h
    have := congrArg List.length h
    simp at this
    omega
  rcases h1 with ⟨rfl, h1⟩ | ⟨n1, h1, rfl, rfl, rfl, rfl⟩
  · rcases h2 with ⟨_, h3⟩ | ⟨n2, h3, n3, rfl⟩
    · exact Or.inl ⟨rfl, h3, h1⟩
    · exact absurd n3 hne
  · rcases h2 with ⟨h2, _⟩ | ⟨_, _, _, rfl⟩
    · exact absurd h2.symm hne
    · exact Or.inr ⟨n1, h1, rfl, rfl, rfl, rfl, rfl⟩

/-- insert at something that is not a position of the deque changes nothing and returns end -/
theorem C24_insert_invalid {count : Nat} {p value : Loc} (hv0 : value.1 ≠ 0) (hp : ¬ (p.1 = b ∧ 1 + lo ≤ p.2 ∧ p.2 ≤ 1 + lo + ws.length)) :
    Triple nf (isDeq e v b lo hi ws) (insertN T v p count value) (fun r => ⌜r = (b, 1 + lo + ws.length)⌝ ∗ isDeq e v b lo hi ws) := insertN_invalid hv0 hp

theorem C24_erase {X Y : List W} {w : W} :
    Triple nf (isDeq e v b lo hi (X ++ w :: Y)) (erase T v (b, 1 + lo + X.length))
      (fun r => ⌜r = (b, 1 + lo + X.length)⌝ ∗ isDeq e v b lo (hi + 1) (X ++ Y)) := erase_spec

theorem C24_erase_invalid {p : Loc} (hp : ¬ (p.1 = b ∧ 1 + lo ≤ p.2 ∧ p.2 < 1 + lo + ws.length)) :
    Triple nf (isDeq e v b lo hi ws) (erase T v p) (fun r => ⌜r = (b, 1 + lo + ws.length)⌝ ∗ isDeq e v b lo hi ws) := erase_invalid hp

theorem C24_erase_range {X Y Z : List W} :
    Triple nf (isDeq e v b lo hi (X ++ Y ++ Z)) (eraseRange T v (b, 1 + lo + X.length) (b, 1 + lo + X.length + Y.length))
      (fun r => ⌜r = (b, 1 + lo + X.length)⌝ ∗ isDeq e v b lo (hi + Y.length) (X ++ Z)) := eraseRange_spec

theorem C24_erase_range_invalid {p q : Loc} (hp : ¬ (p.1 = b ∧ q.1 = b ∧ 1 + lo ≤ p.2 ∧ p.2 ≤ q.2 ∧ q.2 ≤ 1 + lo + ws.length)) :
    Triple nf (isDeq e v b lo hi ws) (eraseRange T v p q) (fun r => ⌜r = (b, 1 + lo + ws.length)⌝ ∗ isDeq e v b lo hi ws) := eraseRange_invalid hp

theorem C24_clear : Triple nf (isDeq e v b lo hi ws) (clear T v)
    (fun _ => ∃ₛ lo' hi', ⌜lo' + hi' = lo + ws.length + hi⌝ ∗ isDeq e v b lo' hi' []) := by
  refine Triple.post clear_any ?_
  intro _
  xexists _, _
  cancel
  exact clear_sum

/-- resize_with_value: exactly the first `n` elements, padded with copies of the value -/
theorem C24_resize_with_value {e : ElemSpec True (T ty) W} {n : Nat} {value : Loc} {w : W} (hv0 : value.1 ≠ 0)
    (hp : e.Plain ∨ ws = [] ∨ n - ws.length ≤ lo + hi) :
    Triple True (isDeq e v b lo hi ws ∗ cell e value w) (resizeWithValue T v n value)
      (fun _ => ∃ₛ b' lo' hi', isDeq e v b' lo' hi' (ws.take n ++ List.replicate (n - ws.length) w) ∗ cell e value w) := by
  have := resize_any (e := e) (v := v) (b := b) (lo := lo) (hi := hi) (count := n) (value := value) (w := w) hp
  rw [arg_cell hv0] at this
  refine Triple.post this ?_
  intro _
  xintro b' lo' hi' ws' h
  obtain ⟨h1, h2⟩ := h.1.resolve_right (fun h => h.1 trivial)
  dsimp only at h1
  subst h1
  xexists b', lo', hi'
  cancel

/-- shrink_to_fit: same elements, no unused slots (unless the allocation failed) -/
theorem C24_shrink_to_fit (hp : e.Plain ∨ ws = [] ∨ (lo = 0 ∧ hi = 0)) :
    Triple nf (isDeq e v b lo hi ws) (shrinkToFit T v)
      (fun _ => ∃ₛ b' lo' hi', ⌜lo' = 0 ∧ hi' = 0 ∨ (¬ nf ∧ b' = b ∧ lo' = lo ∧ hi' = hi)⌝ ∗ isDeq e v b' lo' hi' ws) := shrinkToFit_spec hp

theorem C24_swap {ty2 : Nat} {e2 : ElemSpec nf (T ty2) W} {v2 b2 lo2 hi2 : Nat} {ws2 : List W} :
    Triple nf (isDeq e v b lo hi ws ∗ isDeq e2 v2 b2 lo2 hi2 ws2) (swap v v2)
      (fun _ => isDeq e2 v b2 lo2 hi2 ws2 ∗ isDeq e v2 b lo hi ws) := swap_spec

/-- queries -/
theorem C24_size : Triple nf (isDeq e v b lo hi ws) (size v) (fun r => ⌜r = ws.length⌝ ∗ isDeq e v b lo hi ws) := lift size_spec
theorem C24_empty : Triple nf (isDeq e v b lo hi ws) (empty v) (fun r => ⌜r = true ↔ ws = []⌝ ∗ isDeq e v b lo hi ws) := by
  refine Triple.post (lift empty_spec) ?_
  intro r
  xsub
  cancel
  simp
theorem C24_capacity : Triple nf (isDeq e v b lo hi ws) (capacity v) (fun r => ⌜r = lo + ws.length + hi⌝ ∗ isDeq e v b lo hi ws) := lift capacity_spec
/-- at(i) is the address of element i (without a bounds check) -/
theorem C24_at {i : Nat} : Triple nf (isDeq e v b lo hi ws) (at_ v i) (fun r => ⌜r = (b, 1 + lo + i)⌝ ∗ isDeq e v b lo hi ws) := by
  apply deq_fact'; intro hv
  unfold at_
  rw [if_neg hv]
  call (lift (e := e) (begin_spec (v := v)))
  intro r
  xsub
  apply Triple.ret
  cancel

/-- the element at that address is the i-th -/
theorem C24_element {i : Nat} {w : W} (h : ws[i]? = some w) : ∃ R, isDeq e v b lo hi ws = (cell e (b, 1 + lo + i) w ∗ R) := by
  obtain ⟨X, Y, rfl, rfl⟩ : ∃ X Y, ws = X ++ w :: Y ∧ X.length = i := by
    have hi := (List.getElem?_eq_some_iff.1 h)
    obtain ⟨hi, he⟩ := hi
    exact ⟨ws.take i, ws.drop (i + 1), by rw [← he]; simp, by simp; omega⟩
  unfold isDeq
  rw [live_append, live_cons]
  refine ⟨dhdr v b lo (X ++ w :: Y).length hi ty ∗ raws b 1 lo ∗ live e b (1 + lo) X ∗ live e b (1 + lo + X.length + 1) Y ∗
    raws b (1 + lo + (X ++ w :: Y).length) hi, ?_⟩
  apply ent_antisymm
  · cancel
  · cancel

/-- `front` / `back` refer to the first / last element, NULL if there is none -/
theorem C24_front : Triple nf (isDeq e v b lo hi ws) (front v) (fun r => ⌜r = if ws = [] then (0, 0) else (b, 1 + lo)⌝ ∗ isDeq e v b lo hi ws) := by
  refine Triple.post (lift front_spec) ?_
  intro r
  xsub
  cancel
  simp
theorem C24_back : Triple nf (isDeq e v b lo hi ws) (back v) (fun r => ⌜r = if ws = [] then (0, 0) else (b, lo + ws.length)⌝ ∗ isDeq e v b lo hi ws) := by
  refine Triple.post (lift back_spec) ?_
  intro r
  xsub
  cancel
  simp

/-- Every history of operations does what the operations mean on sequences (`Step`, Verif/Deq/History.lean), with any allocator. -/
theorem C24_history {ops : List Op} {ρ : Loc → W} (hv : ValidOps e R ρ ops ⟨lo, hi, ws⟩) :
    Triple nf (isDeq e v b lo hi ws ∗ R) (runOps T v ops)
      (fun _ => ∃ₛ b' lo' hi' ws', ⌜Steps e.dflt ρ nf ops ⟨lo, hi, ws⟩ ⟨lo', hi', ws'⟩⌝ ∗ isDeq e v b' lo' hi' ws' ∗ R) := runOps_spec hv

/-- a valid history on plain data -/
example (ρ : Loc → Nat) (hρ : ρ (1, 1) = 7) :
    ValidOps (plainSpec (nf := True) intTy) (cell (plainSpec (nf := True) intTy) (1,1) 7) ρ
      [.pushFront (1,1), .pushBack (1,1), .insertN 1 3 (1,1), .popFront, .erase 2, .shrinkToFit, .resize 9, .eraseRange 2 5, .clear] ⟨0, 0, []⟩ := by
  have r1 : Holds (plainSpec (nf := True) intTy) (cell (plainSpec (nf := True) intTy) (1,1) 7) (1,1) (ρ (1,1)) := by
    rw [hρ]; exact ⟨by simp, emp, by rw [sep_emp]⟩
  have hp := plain_plain (nf := True) intTy
  refine ⟨⟨r1, Or.inl hp⟩, fun s1 h1 => ⟨⟨r1, Or.inl hp⟩, fun s2 h2 => ⟨⟨?_, r1, Or.inl hp⟩, fun s3 h3 => ⟨trivial, fun s4 h4 => ⟨trivial, fun s5 h5 =>
    ⟨Or.inl hp, fun s6 h6 => ⟨Or.inl hp, fun s7 h7 => ⟨?_, fun s8 h8 => ⟨trivial, fun _ _ => trivial⟩⟩⟩⟩⟩⟩⟩⟩⟩
  · have a1 := (h1.1.resolve_right (fun h => h.1 trivial)).1
    have a2 := (h2.1.resolve_right (fun h => h.1 trivial)).1
    rw [a2]
    simp
  · have a1 := (h7.1.resolve_right (fun h => h.1 trivial)).1
    show 2 ≤ 5 ∧ 5 ≤ s7.ws.length
    rw [a1]
    simp
    omega

/-- create; any valid history; destroy: afterwards the memory is bit for bit what it was, whatever the elements own -/
theorem C24_lifecycle {ops : List Op} {ρ : Loc → W} (hty : ty ≠ 0) (m : Mem V) (hm : nf → ∀ t, m.orc t ≠ 0)
    (hv : ValidOps e (exactly m.cells) ρ ops ⟨0, 0, []⟩) :
    ∃ m' : Mem V, (do
        let v ← create ty
        if v = 0 then pure () else do
        runOps T v ops
        destroy T v : M V Unit) m = some (.ok ((), m')) ∧ m'.cells = m.cells := by
  have ht : Triple nf (exactly m.cells) (do
        let v ← create ty
        if v = 0 then pure () else do
        runOps T v ops
        destroy T v) (fun _ => exactly m.cells) := by
    call (create_spec (e := e) hty)
    intro v
    xintro _
    by_cases hv0 : v = 0
    · rw [if_pos hv0, if_pos hv0, emp_sep]
      exact Triple.ret (ent_refl _)
    · rw [if_neg hv0, if_neg hv0]
      refine Triple.bind (runOps_spec hv) ?_
      intro _
      xintro b' lo' hi' ws' h
      call (destroy_spec (v := v))
      intro _
      rw [emp_sep]
      exact ent_refl _
  obtain ⟨_, m', h1, _, h2⟩ := ht.run (F := emp) (s := m) hm (by rw [sep_emp]; exact (rfl : m.cells = m.cells))
  rw [sep_emp] at h2
  exact ⟨m', h1, h2⟩

/-- a valid history for elements that own memory: three at once, then pops and an erase -/
example (ρ : Loc → Nat) (t : Ty Nat) (R : HProp Nat) (hρ : ρ (1, 1) = 7) :
    ValidOps (boxSpec t) (cell (boxSpec t) (1,1) 7 ∗ R) ρ [.resizeWithValue 3 (1,1), .popFront, .insert 1 (1,1), .popBack, .erase 0, .clear] ⟨0, 0, []⟩ := by
  have r1 : Holds (boxSpec t) (cell (boxSpec t) (1,1) 7 ∗ R) (1,1) (ρ (1,1)) := by
    rw [hρ]; exact ⟨by simp, R, rfl⟩
  refine ⟨⟨r1, Or.inr (Or.inl rfl)⟩, fun s1 h1 => ⟨trivial, fun s2 h2 => ⟨?_, fun s3 h3 => ⟨trivial, fun s4 h4 => ⟨trivial, fun _ _ => ⟨trivial, fun _ _ => trivial⟩⟩⟩⟩⟩⟩
  obtain ⟨lo1, hi1, w1⟩ := s1
  have a1 := (h1.1.resolve_right (fun h => h.1 trivial)).1
  dsimp only at a1
  subst a1
  rw [h2]
  refine ⟨by simp, r1, Or.inr (Or.inr ?_)⟩
  simp
  omega

/-! ## C25 copy and assign -/

/-- copy is right if the source has no unused slots. (Missing: the other sources, see `C25_copy_violated`.) -/
theorem C25_copy_partial {e : ElemSpec True (T ty) W} (hp : e.Plain) (hty : ty ≠ 0) :
    Triple True (isDeq e v b 0 0 ws) (copy T v) (fun r => isDeq e v b 0 0 ws ∗ ∃ₛ b' lo' hi', isDeq e r b' lo' hi' ws) := by
  refine Triple.post (copy_spec hp hty) ?_
  intro r
  simp only [Nat.add_zero, List.replicate_zero, List.append_nil]
  exact ent_refl _

/-- If the source has unused slots the copy has more elements than the source: as many as the source has slots. -/
theorem C25_copy_violated {e : ElemSpec True (T ty) W} (hp : e.Plain) (hty : ty ≠ 0) (hspare : 0 < lo + hi) :
    Triple True (isDeq e v b lo hi ws) (do let r ← copy T v; let n ← size r; pure (r, n))
      (fun r => ⌜r.2 = lo + ws.length + hi ∧ r.2 ≠ ws.length⌝ ∗ isDeq e v b lo hi ws ∗
        ∃ₛ b' lo' hi', isDeq e r.1 b' lo' hi' (ws ++ List.replicate (lo + hi) e.dflt)) := by
  call (copy_spec (e := e) (v := v) (b := b) (lo := lo) (hi := hi) (ws := ws) hp hty)
  intro r
  xintro b' lo' hi'
  call (lift (e := e) (size_spec (v := r)))
  intro n
  xsub
  apply Triple.ret
  dsimp only
  xexists b', lo', hi'
  cancel
  simp
  omega

/-- assign is right for an empty source that has not more slots than the target, for a source without unused slots that has more slots than the target, and for
self-assignment. (Missing: all other cases, see `C25_assign_violated` and `C25_assign_overflow_violated`.) -/
theorem C25_assign_partial {e : ElemSpec True (T ty) W} {v2 b2 lo2 hi2 : Nat} {ws2 : List W} (hp : e.Plain)
    (h : (lo + ws.length + hi < lo2 + ws2.length + hi2 ∧ lo2 = 0 ∧ hi2 = 0) ∨ (lo2 + ws2.length + hi2 ≤ lo + ws.length + hi ∧ ws2 = [])) :
    Triple True (isDeq e v b lo hi ws ∗ isDeq e v2 b2 lo2 hi2 ws2) (assign T v v2)
      (fun r => ⌜r = v⌝ ∗ isDeq e v2 b2 lo2 hi2 ws2 ∗ ∃ₛ b' lo' hi', isDeq e v b' lo' hi' ws2) := by
  rcases h with ⟨h1, rfl, rfl⟩ | ⟨h1, rfl⟩
  · refine Triple.post (assign_grow hp h1) ?_
    intro r
    simp only [Nat.add_zero, List.replicate_zero, List.append_nil]
    exact ent_refl _
  · refine Triple.post (assign_lost hp h1 (by simp)) ?_
    intro r
    xintro hr
    xexists b, _, _
    cancel

theorem C25_assign_self : Triple nf (isDeq e v b lo hi ws) (assign T v v) (fun r => ⌜r = v⌝ ∗ isDeq e v b lo hi ws) := assign_self

/-- In all other cases the target does not get the source's elements: either it has as many elements as the source has slots, or it is empty, … -/
theorem C25_assign_violated {e : ElemSpec True (T ty) W} {v2 b2 lo2 hi2 : Nat} {ws2 : List W} (hp : e.Plain)
    (h : (lo + ws.length + hi < lo2 + ws2.length + hi2 ∧ 0 < lo2 + hi2) ∨
      (lo2 + ws2.length + hi2 ≤ lo + ws.length + hi ∧ ws2 ≠ [] ∧ ws2.length ≤ clearHi lo hi ws)) :
    Triple True (isDeq e v b lo hi ws ∗ isDeq e v2 b2 lo2 hi2 ws2) (do let _ ← assign T v v2; size v)
      (fun r => ⌜(r = lo2 + ws2.length + hi2 ∨ r = 0) ∧ r ≠ ws2.length⌝ ∗ isDeq e v2 b2 lo2 hi2 ws2 ∗ ∃ₛ b' lo' hi' ws', isDeq e v b' lo' hi' ws') := by
  rcases h with ⟨h1, h2⟩ | ⟨h1, h2, h3⟩
  · refine Triple.bind (assign_grow hp h1) ?_
    intro r
    xintro hr b' lo' hi'
    call (lift (e := e) (size_spec (v := v)))
    intro n
    xsub
    xexists b', lo', hi', _
    cancel
    simp only [List.length_append, List.length_replicate]
    omega
  · refine Triple.bind (assign_lost hp h1 h3) ?_
    intro r
    xintro hr
    call (lift (e := e) (size_spec (v := v)))
    intro n
    xsub
    xexists b, _, _, _
    cancel
    refine ⟨Or.inr rfl, ?_⟩
    have := List.length_pos_iff.2 h2
    simp only [List.length_nil]
    omega

/-- … or the call writes outside the target's storage: after clearing, the unused slots are split between both ends and the code copies into the back part
(`clearHi`: half of the slots, if the target was not empty) without looking at its size. -/
theorem C25_assign_overflow_violated {e : ElemSpec True (T ty) W} {v2 b2 lo2 hi2 : Nat} {ws2 : List W} (hp : e.Plain)
    (h1 : lo2 + ws2.length + hi2 ≤ lo + ws.length + hi) (h2 : (if ws = [] then hi else (lo + ws.length + hi) - (lo + ws.length + hi) / 2) < ws2.length) :
    Bad (isDeq e v b lo hi ws ∗ isDeq e v2 b2 lo2 hi2 ws2) (assign T v v2) := by
  refine assign_bad hp h1 ?_
  unfold clearHi
  exact h2

/-- assigning a deque of three `int`s to another deque of three `int`s: a memory reached by the API in which the call is undefined behaviour -/
example : ∃ (m : Mem Nat) (v v2 : Addr), assign (fun _ => plainOps intTy) v v2 m = some (.error .ub) := by
  obtain ⟨m, v, b, v2, b2, ho, hm⟩ := exists_deqs (T := fun _ => plainOps intTy) (ty := 1) (plainSpec (nf := True) intTy) (plain_plain _) (by simp) 3 0 3 0
  exact ⟨m, v, v2, C25_assign_overflow_violated (plain_plain _) (by simp) (by simp [List.replicate]) m ho hm⟩

/-- assigning a deque of one `int` to a deque of three: the target ends up empty -/
example {v v2 b b2 : Nat} : Triple True (isDeq (T := fun _ => plainOps intTy) (ty := 1) (plainSpec (nf := True) intTy) v b 0 0 [1, 2, 3] ∗
      isDeq (T := fun _ => plainOps intTy) (ty := 1) (plainSpec (nf := True) intTy) v2 b2 0 0 [4]) (do let _ ← assign (fun _ => plainOps intTy) v v2; size v)
      (fun r => ⌜(r = 1 ∨ r = 0) ∧ r ≠ 1⌝ ∗ isDeq (T := fun _ => plainOps intTy) (ty := 1) (plainSpec (nf := True) intTy) v2 b2 0 0 [4] ∗
        ∃ₛ b' lo' hi' ws', isDeq (T := fun _ => plainOps intTy) (ty := 1) (plainSpec (nf := True) intTy) v b' lo' hi' ws') :=
  C25_assign_violated (plain_plain _) (Or.inr ⟨by simp, by simp, by simp [clearHi]⟩)

end CC.Deq
