import Verif.Vec.Bugs2
/-!
# Properties C16–C23: `c_vector`

`isVec e v b cap ws` (Verif/Vec/Rep.lean) says that a heap fragment is exactly a well-formed vector object `v` whose storage is block `b` with
`cap` slots, holding the values `ws`: element number `i` lives at `(b, 1 + i)`.  `e` describes the element type (Verif/Core/Elem.lean):
its callbacks are arbitrary programs, `cell e l w` is a constructed object with value `w` at `l` together with the resources it owns,
and `e.Plain` says that objects own nothing but their bits.  `Triple nf P m Q` (Verif/Core/Sep.lean): from every memory containing `P`, with every
allocator (that never fails, if `nf`), `m` ends without fault in a memory containing `Q`, everything else untouched.
`Bad P m` (Verif/Core/Bad.lean): from every memory that is exactly `P`, with every allocator that never fails, `m` runs into undefined behaviour.
-/
namespace CC.Vec
open CC CC.Tac
variable {V W : Type} {nf : Prop} {T : Nat → Ops V} {ty : Nat} {e : ElemSpec nf (T ty) W}
variable {v b cap : Nat} {ws : List W} {R : HProp V}

theorem plain_live {nf : Prop} {t : Ty V} {b i : Nat} {vs : List V} :
    arr b i (vs.map fun v => .obj (some v)) ⊢ₛ live (plainSpec (nf := nf) t) b i vs := by
  induction vs generalizing i with
  | nil => exact ent_refl _
  | cons v vs ih =>
    simp only [List.map_cons, arr, live_cons, cell]
    xexists .obj (some v)
    show (pts (b, i) (.obj (some v)) ∗ arr b (i+1) _) ⊢ₛ (pts (b, i) (.obj (some v)) ∗ ⌜(Val.obj (some v) : Val V) = .obj (some v)⌝) ∗ _
    cancel_core
    · exact ih
    · rfl

/-- Non-vacuity: for all values `vs`, a memory that contains a vector of `vs` (and the array it was made from) exists and is reached by the API
itself (`c_vector_create_from_array`). -/
theorem exists_vec (t : Ty V) (ty : Nat) (hty : ty ≠ 0) (vs : List V) (hvs : vs ≠ []) :
    ∃ (m : Mem V) (v b : Addr), (∀ t, m.orc t ≠ 0) ∧
      (isVec (T := fun _ => plainOps t) (ty := ty) (plainSpec (nf := True) t) v b vs.length vs ∗ live (plainSpec (nf := True) t) 1 1 vs) m.cells := by
  obtain ⟨m, ho, hm⟩ := exists_array vs (fun _ => 1)
  obtain ⟨r, m', _, ho', hm'⟩ := (createFromArray_spec (T := fun _ => plainOps t) (ty := ty) (e := plainSpec t) (ws := vs) (vb := 1) (vi := 1)
    (plain_plain t) hty (by omega) hvs).run (F := emp) (s := m) (fun _ t => by rw [ho]; simp) (by rw [sep_emp]; exact plain_live _ hm)
  rw [sep_emp, sep_comm, hex_sep] at hm'
  obtain ⟨b, hm'⟩ := hm'
  exact ⟨m', r, b, by rw [ho', ho]; simp, hm'⟩

/-- `int` -/
def intTy : Ty Nat := ⟨0, fun a b => a < b, fun a b => a == b⟩

example : ∃ (m : Mem Nat) (v b : Addr),
    (isVec (T := fun _ => plainOps intTy) (ty := 1) (plainSpec (nf := True) intTy) v b 3 [3, 1, 2] ∗ live (plainSpec (nf := True) intTy) 1 1 [3, 1, 2]) m.cells := by
  obtain ⟨m, v, b, _, hm⟩ := exists_vec (V := Nat) intTy 1 (by simp) [3, 1, 2] (by simp)
  exact ⟨m, v, b, hm⟩

/-- Non-vacuity of the statements about whole memories (`Bad`): for every proper element type the API reaches a memory that consists exactly of a vector of `k` default
elements with capacity `k + j`, and one object outside the vector. -/
theorem exists_vec_spare (e : ElemSpec True (T ty) W) (hty : ty ≠ 0) (k j : Nat) (hk : k + j ≠ 0) :
    ∃ (m : Mem V) (v b a : Addr), (∀ t, m.orc t ≠ 0) ∧
      (isVec e v b (k + j) (List.replicate k e.dflt) ∗ blk a 1 ∗ cell e (a, 1) e.dflt) m.cells := by
  have ht : Triple True emp (do
        let a ← mallocO 1
        (T ty).create (a, 1)
        let v ← createN T ty (k + j) (a, 1)
        resize T v k
        pure (a, v)) (fun r => ∃ₛ b, isVec e r.2 b (k + j) (List.replicate k e.dflt) ∗ blk r.1 1 ∗ cell e (r.1, 1) e.dflt) := by
    apply mallocO_spec
    · intro h; exact absurd trivial h
    intro a ha
    rw [raws_succ, raws_zero, sep_emp, sep_emp]
    call (createCell_spec (e := e) (l := (a, 1)))
    intro _
    call (createN_spec (e := e) (value := (a, 1)) (w := e.dflt) hty ha hk)
    intro v
    xintro hv
    rw [if_neg (fun h => hv h trivial)]
    xintro b cap ws h
    obtain ⟨rfl, rfl⟩ := h.resolve_right (fun h => h.1 trivial)
    call (resize_spec (e := e) (v := v) (b := b) (cap := k + j) (ws := List.replicate (k + j) e.dflt) (count := k) (Or.inr (Or.inr (by omega))))
    intro _
    xintro b' cap' ws' h
    obtain ⟨rfl, h1, _⟩ := h.resolve_right (fun h => h.1 trivial)
    rw [if_neg (by omega)] at h1
    subst h1
    apply Triple.ret
    dsimp only
    xexists b'
    have : (List.replicate (k + j) e.dflt).take k ++ List.replicate (k - (List.replicate (k + j) e.dflt).length) e.dflt = List.replicate k e.dflt := by
      simp [List.take_replicate]
    rw [this]
    cancel
  obtain ⟨m, ho, hm⟩ := exists_array ([] : List V) (fun _ => 1)
  obtain ⟨r, m', _, ho', hm'⟩ := ht.run (F := emp) (s := m) (fun _ t => by rw [ho]; simp) (by rw [sep_emp]; exact hm)
  rw [sep_emp] at hm'
  obtain ⟨b, hm'⟩ := hm'
  exact ⟨m', r.2, b, r.1, by rw [ho', ho]; simp, hm'⟩

/-! ## C16 edits -/

/-- push_back appends a copy of the value (if there is room, in place) -/
theorem C16_push_back {e : ElemSpec True (T ty) W} {value : Loc} {w : W} (hv0 : value.1 ≠ 0) (hp : e.Plain ∨ ws = [] ∨ ws.length < cap) :
    Triple True (isVec e v b cap ws ∗ cell e value w) (pushBack T v value)
      (fun _ => ∃ₛ b' cap', ⌜ws.length < cap → b' = b ∧ cap' = cap⌝ ∗ isVec e v b' cap' (ws ++ [w]) ∗ cell e value w) := by
  refine Triple.post (pushBack_spec hv0 hp) ?_
  intro _
  xintro b' cap' ws' h
  obtain ⟨rfl, h1, h2⟩ := h.resolve_right (fun h => h.1 trivial)
  xexists b', cap'
  cancel
  intro hlt
  rw [if_neg (by omega)] at h1
  exact ⟨h2 (by omega), h1⟩

theorem C16_pop_back : Triple nf (isVec e v b cap ws) (popBack T v) (fun _ => isVec e v b cap ws.dropLast) := popBack_spec

/-- insert puts a copy of the value in front of the position and returns the position of the new element -/
theorem C16_insert {e : ElemSpec True (T ty) W} {X Y : List W} {value : Loc} {w : W} (hv0 : value.1 ≠ 0)
    (hp : e.Plain ∨ X ++ Y = [] ∨ (X ++ Y).length < cap) :
    Triple True (isVec e v b cap (X ++ Y) ∗ cell e value w) (insert T v (b, 1 + X.length) value)
      (fun r => ∃ₛ b' cap', ⌜r = (b', 1 + X.length)⌝ ∗ isVec e v b' cap' (X ++ w :: Y) ∗ cell e value w) := by
  apply vec_facts; intro hv hcap
  refine Triple.post (insertN_spec (count := 1) hv0 ?_ hp) ?_
  · unfold insCap newCap
    split
    · split <;> omega
    · omega
  · intro r
    xintro b' cap' ws' h
    obtain ⟨h1, h2⟩ := h
    obtain ⟨rfl, h3, h4⟩ := h1.resolve_right (fun h => h.1 trivial)
    xexists b', cap'
    rw [List.replicate_one, List.append_assoc, List.singleton_append]
    cancel
    rcases h2 with ⟨h, _⟩ | ⟨_, h, _⟩
    · exact h
    · exact absurd trivial h

/-- insert at something that is not a position of the vector changes nothing and returns end -/
theorem C16_insert_invalid {count : Nat} {p value : Loc} (hv0 : value.1 ≠ 0) (hp : ¬ (p.1 = b ∧ 1 ≤ p.2 ∧ p.2 ≤ 1 + ws.length)) :
    Triple nf (isVec e v b cap ws) (insertN T v p count value) (fun r => ⌜r = (b, 1 + ws.length)⌝ ∗ isVec e v b cap ws) := insertN_invalid hv0 hp

/-- erase removes the element and returns the position of the next one; the storage and the other elements' order stay -/
theorem C16_erase {X Y : List W} {w : W} :
    Triple nf (isVec e v b cap (X ++ w :: Y)) (erase T v (b, 1 + X.length))
      (fun r => ⌜r = (b, 1 + X.length)⌝ ∗ isVec e v b cap (X ++ Y)) := erase_spec

theorem C16_erase_invalid {p : Loc} (hp : ¬ (p.1 = b ∧ 1 ≤ p.2 ∧ p.2 < 1 + ws.length)) :
    Triple nf (isVec e v b cap ws) (erase T v p) (fun r => ⌜r = (b, 1 + ws.length)⌝ ∗ isVec e v b cap ws) := erase_invalid hp

theorem C16_erase_range {X Y Z : List W} :
    Triple nf (isVec e v b cap (X ++ Y ++ Z)) (eraseRange T v (b, 1 + X.length) (b, 1 + X.length + Y.length))
      (fun r => ⌜r = (b, 1 + X.length)⌝ ∗ isVec e v b cap (X ++ Z)) := eraseRange_spec

theorem C16_clear : Triple nf (isVec e v b cap ws) (clear T v) (fun _ => isVec e v b cap []) := clear_spec

/-- resize_with_value cuts the vector to `n` elements or appends copies of the value until it has `n` -/
theorem C16_resize_with_value {e : ElemSpec True (T ty) W} {n : Nat} {value : Loc} {w : W} (hv0 : value.1 ≠ 0) (hp : e.Plain ∨ ws = [] ∨ n ≤ cap) :
    Triple True (isVec e v b cap ws ∗ cell e value w) (resizeWithValue T v n value)
      (fun _ => ∃ₛ b' cap', isVec e v b' cap' (ws.take n ++ List.replicate (n - ws.length) w) ∗ cell e value w) := by
  have := resizeWithValue_spec (e := e) (v := v) (b := b) (count := n) (value := value) (w := w) hp
  rw [arg_cell hv0] at this
  refine Triple.post this ?_
  intro _
  xintro b' cap' ws' h
  obtain ⟨rfl, h1, h2⟩ := h.resolve_right (fun h => h.1 trivial)
  xexists b', cap'
  cancel

/-- resize appends default elements -/
theorem C16_resize {e : ElemSpec True (T ty) W} {n : Nat} (hp : e.Plain ∨ ws = [] ∨ n ≤ cap) :
    Triple True (isVec e v b cap ws) (resize T v n)
      (fun _ => ∃ₛ b' cap', isVec e v b' cap' (ws.take n ++ List.replicate (n - ws.length) e.dflt)) := by
  refine Triple.post (resize_spec hp) ?_
  intro _
  xintro b' cap' ws' h
  obtain ⟨rfl, h1, h2⟩ := h.resolve_right (fun h => h.1 trivial)
  xexists b', cap'
  cancel

/-- `at i` is a reference to element number `i` (there is no bounds check), `front` / `back` to the first / last one, NULL if there is none, `data` to the storage -/
theorem C16_at {i : Nat} :
    Triple nf (isVec e v b cap ws) (at_ v i) (fun r => ⌜r = (b, 1 + i)⌝ ∗ isVec e v b cap ws) := at_spec
theorem C16_front : Triple nf (isVec e v b cap ws) (front v) (fun r => ⌜r = if ws = [] then (0, 0) else (b, 1)⌝ ∗ isVec e v b cap ws) := front_spec
theorem C16_back : Triple nf (isVec e v b cap ws) (back v) (fun r => ⌜r = if ws = [] then (0, 0) else (b, ws.length)⌝ ∗ isVec e v b cap ws) := back_spec
theorem C16_data : Triple nf (isVec e v b cap ws) (data v) (fun r => ⌜r = (b, 1)⌝ ∗ isVec e v b cap ws) := data_spec
theorem C16_size : Triple nf (isVec e v b cap ws) (size v) (fun r => ⌜r = ws.length⌝ ∗ isVec e v b cap ws) := vsize_spec
theorem C16_empty : Triple nf (isVec e v b cap ws) (empty v) (fun r => ⌜r = true ↔ ws = []⌝ ∗ isVec e v b cap ws) := by
  refine Triple.post vempty_spec ?_
  intro r
  xsub
  cancel
  simp
/-- the slot `at i` refers to holds the constructed element number `i` -/
theorem C16_element {i : Nat} {w : W} (h : ws[i]? = some w) : ∃ R, isVec e v b cap ws = (cell e (b, 1 + i) w ∗ R) := vec_cell h

/-- swap exchanges contents, capacities and element types -/
theorem C16_swap {ty2 : Nat} {e2 : ElemSpec nf (T ty2) W} {v2 b2 cap2 : Nat} {ws2 : List W} :
    Triple nf (isVec e v b cap ws ∗ isVec e2 v2 b2 cap2 ws2) (swap v v2)
      (fun _ => isVec e2 v b2 cap2 ws2 ∗ isVec e v2 b cap ws) := swap_spec

theorem C16_create_n {e : ElemSpec True (T ty) W} {count : Nat} {value : Loc} {w : W} (hty : ty ≠ 0) (hv0 : value.1 ≠ 0) (hn : count ≠ 0) :
    Triple True (cell e value w) (createN T ty count value)
      (fun r => cell e value w ∗ ∃ₛ b', isVec e r b' count (List.replicate count w)) := by
  refine Triple.post (createN_spec hty hv0 hn) ?_
  intro r
  xintro h
  rw [if_neg (fun h0 => h h0 trivial)]
  xintro b' cap' ws' h'
  obtain ⟨rfl, rfl⟩ := h'.resolve_right (fun h => h.1 trivial)
  xexists b'
  cancel

theorem C16_create_from_array {e : ElemSpec True (T ty) W} {vb vi : Nat} (hp : e.Plain) (hty : ty ≠ 0) (hvb : vb ≠ 0) (hws : ws ≠ []) :
    Triple True (live e vb vi ws) (createFromArray T ty (vb, vi) ws.length)
      (fun r => live e vb vi ws ∗ ∃ₛ b', isVec e r b' ws.length ws) := createFromArray_spec hp hty hvb hws

/-- Every history of operations does what the operations mean on sequences (`Step`, Verif/Vec/History.lean), with any allocator. -/
theorem C16_history {ops : List Op} {ρ : Loc → W} (hv : ValidOps e R ρ ops ⟨cap, ws⟩) :
    Triple nf (isVec e v b cap ws ∗ R) (runOps T v ops)
      (fun _ => ∃ₛ b' cap' ws', ⌜Steps e.dflt ρ nf ops ⟨cap, ws⟩ ⟨cap', ws'⟩⌝ ∗ isVec e v b' cap' ws' ∗ R) := runOps_spec hv

/-- a valid history: push 7 three times, insert five 7s at position 1 (needs a reallocation), push a copy of element 0, erase, shrink -/
example (ρ : Loc → Nat) (hρ : ρ (1, 1) = 7) :
    ValidOps (plainSpec (nf := True) intTy) (cell (plainSpec (nf := True) intTy) (1,1) 7) ρ
      [.pushBack (1,1), .resizeWithValue 3 (1,1), .insertN 1 3 (1,1), .erase 2, .pushBackAlias 0, .clear, .shrinkToFit] ⟨0, []⟩ := by
  have r1 : Holds (plainSpec (nf := True) intTy) (cell (plainSpec (nf := True) intTy) (1,1) 7) (1,1) (ρ (1,1)) := by
    rw [hρ]; exact ⟨by simp, emp, by rw [sep_emp]⟩
  have hp := plain_plain (nf := True) intTy
  refine ⟨⟨r1, Or.inl hp⟩, fun s1 h1 => ⟨⟨r1, Or.inl hp⟩, fun s2 h2 => ⟨?_, fun s3 h3 => ⟨?_, fun s4 h4 => ⟨?_, fun s5 h5 => ⟨trivial, fun s6 h6 => ⟨Or.inl hp, fun _ _ => trivial⟩⟩⟩⟩⟩⟩⟩
  all_goals obtain ⟨c1, w1⟩ := s1; obtain ⟨c2, w2⟩ := s2
  all_goals obtain ⟨a1, a2, a3⟩ := h1.resolve_right (fun h => h.1 trivial)
  all_goals obtain ⟨b1, b2, b3⟩ := h2.resolve_right (fun h => h.1 trivial)
  all_goals simp only at a1 a2 a3 b1 b2 b3
  all_goals subst a1 b1
  all_goals simp at a2 a3 b2 b3 h2
  · refine ⟨by simp, r1, Or.inl hp, ?_⟩
    simp
    omega
  all_goals obtain ⟨c3, w3⟩ := s3
  all_goals obtain ⟨d1, d2, d3⟩ := h3.resolve_right (fun h => h.1 trivial)
  all_goals simp only at d1 d2 d3
  all_goals subst d1
  all_goals simp at d2 d3
  · simp [Valid]
  · rw [h4]
    simp [Valid]
    omega

/-! ## C17 size ≤ capacity, amortised growth -/

theorem C17_size_le_capacity {h : Heap V} (hh : (isVec e v b cap ws ∗ R) h) : ws.length ≤ cap := vec_cap hh

theorem C17_capacity : Triple nf (isVec e v b cap ws) (capacity v) (fun r => ⌜r = cap⌝ ∗ isVec e v b cap ws) := vcapacity_spec

/-- push_back leaves the capacity alone while there is room, and otherwise at least doubles it -/
theorem C17_push_back {value : Loc} {w : W} (hv0 : value.1 ≠ 0) (hp : e.Plain ∨ ws = [] ∨ ws.length < cap) :
    Triple nf (isVec e v b cap ws ∗ cell e value w) (do pushBack T v value; capacity v)
      (fun r => ⌜(ws.length < cap → r = cap) ∧ (ws.length = cap → (r = if cap = 0 then 1 else 2 * cap) ∨ (¬ nf ∧ r = cap))⌝ ∗
        ∃ₛ b' ws', isVec e v b' r ws' ∗ cell e value w) := by
  call (pushBack_spec (e := e) (v := v) (b := b) (cap := cap) (ws := ws) (value := value) (w := w) hv0 hp)
  intro _
  xintro b' cap' ws' h
  call (vcapacity_spec (v := v))
  intro r
  xsub
  xexists b', ws'
  cancel
  rcases h with ⟨_, h, _⟩ | ⟨h, h1, _, _, h2⟩
  · refine ⟨fun hlt => by rw [if_neg (by omega)] at h; exact h, fun heq => Or.inl ?_⟩
    rw [if_pos heq, newCap_one] at h
    exact h
  · exact ⟨fun hlt => absurd h1 (by omega), fun heq => Or.inr ⟨h, h2⟩⟩

/-- A client pushes `n` times and counts the capacity changes (`r.1`) and the elements relocated on these occasions (`r.2`): the changes are logarithmic,
the relocations linear in the final size. -/
theorem C17_amortised {e : ElemSpec True (T ty) W} (hp : e.Plain) {a : Loc} {w : W} {n : Nat} (ha : a.1 ≠ 0) :
    Triple True (isVec e v b cap ws ∗ cell e a w) (pushCount T v a n)
      (fun r => ⌜(r.1 ≠ 0 → 2 ^ r.1 ≤ 4 * (ws.length + n)) ∧ r.2 ≤ 2 * (ws.length + n)⌝ ∗
        ∃ₛ b' cap', isVec e v b' cap' (ws ++ List.replicate n w) ∗ cell e a w) := by
  refine Triple.post (pushCount_spec hp ha) ?_
  intro r
  xintro h b' cap'
  xexists b', cap'
  cancel
  exact ⟨h.logarithmic, h.linear⟩

/-! ## C18 insert_n -/

/-- insert_n inserts `count` copies if they fit, or if the vector is exactly full, or if doubling the capacity makes enough room.
(Missing: the remaining case, in which the code overruns its storage, see `C18_violated`.) -/
theorem C18_insert_n_partial {e : ElemSpec True (T ty) W} {X Y : List W} {count : Nat} {value : Loc} {w : W} (hv0 : value.1 ≠ 0)
    (hroom : (X ++ Y).length + count ≤ cap ∨ (X ++ Y).length = cap ∨ (X ++ Y).length + count ≤ 2 * cap)
    (hp : e.Plain ∨ X ++ Y = [] ∨ (X ++ Y).length + count ≤ cap) :
    Triple True (isVec e v b cap (X ++ Y) ∗ cell e value w) (insertN T v (b, 1 + X.length) count value)
      (fun r => ∃ₛ b' cap', ⌜r = (b', 1 + X.length)⌝ ∗ isVec e v b' cap' (X ++ List.replicate count w ++ Y) ∗ cell e value w) := by
  apply vec_facts; intro hv hcap
  refine Triple.post (insertN_spec hv0 ?_ hp) ?_
  · unfold insCap newCap
    split
    · split <;> omega
    · omega
  · intro r
    xintro b' cap' ws' h
    obtain ⟨h1, h2⟩ := h
    obtain ⟨rfl, h3, h4⟩ := h1.resolve_right (fun h => h.1 trivial)
    xexists b', cap'
    cancel
    rcases h2 with ⟨h, _⟩ | ⟨_, h, _⟩
    · exact h
    · exact absurd trivial h

/-- In every other case — some free slots, but fewer than `count`, and `2 * capacity < size + count` — insert_n of plain data writes outside the storage. -/
theorem C18_violated {t : Ty V} {X Y : List V} {count a : Nat} {w : V}
    (h1 : (X ++ Y).length < cap) (h2 : 2 * cap < (X ++ Y).length + count) :
    Bad (isVec (T := fun _ => plainOps t) (ty := ty) (plainSpec (nf := True) t) v b cap (X ++ Y) ∗ blk a 1 ∗ cell (plainSpec (nf := True) t) (a, 1) w)
      (insertN (fun _ => plainOps t) v (b, 1 + X.length) count (a, 1)) := by
  refine insertN_bad (T := fun _ => plainOps t) rfl (plain_plain t) ?_
  unfold insCap newCap
  rw [if_pos (by omega)]
  split <;> omega

/-- for example a vector of three elements with capacity 4, insert_n of six elements at the end: there is a memory, reached by the API, in which the call runs into
undefined behaviour -/
example : ∃ (m : Mem Nat) (v b a : Addr), insertN (fun _ => plainOps intTy) v (b, 1 + 3) 6 (a, 1) m = some (.error .ub) := by
  obtain ⟨m, v, b, a, ho, hm⟩ := exists_vec_spare (T := fun _ => plainOps intTy) (ty := 1) (plainSpec (nf := True) intTy) (by simp) 3 1 (by simp)
  exact ⟨m, v, b, a, C18_violated (X := [0, 0, 0]) (Y := []) (by simp) (by simp) m ho hm⟩

/-! ## C19 reserve -/

/-- reserve: the capacity becomes at least `n` and the old elements stay in front; nothing happens if the capacity suffices.
(Missing: the size must not change, see `C19_violated`.) -/
theorem C19_reserve_partial {e : ElemSpec True (T ty) W} {n : Nat} (hp : e.Plain ∨ ws = []) :
    Triple True (isVec e v b cap ws) (reserve T v n)
      (fun _ => ∃ₛ b' cap' ext, ⌜n ≤ cap' ∧ (n ≤ cap → ext = [] ∧ b' = b ∧ cap' = cap)⌝ ∗ isVec e v b' cap' (ws ++ ext)) := by
  apply vec_facts'; intro hv hcap
  refine Triple.post (reserve_spec hp) ?_
  intro _
  xintro b' cap' ws' h
  obtain ⟨rfl, rfl, h2⟩ := h.resolve_right (fun h => h.1 trivial)
  by_cases hc : cap < n
  · xexists b', _, List.replicate (n - ws.length) e.dflt
    simp only [if_pos hc]
    cancel
    unfold newCap
    exact ⟨by split <;> omega, fun h => by omega⟩
  · xexists b', _, []
    simp only [if_neg hc, List.append_nil]
    cancel
    exact ⟨by omega, fun _ => ⟨trivial, h2 hc, rfl⟩⟩

/-- Whenever reserve has anything to do it changes the size: afterwards there are `n` elements, the new ones default-constructed. -/
theorem C19_violated {e : ElemSpec True (T ty) W} {n : Nat} (hp : e.Plain ∨ ws = []) (hn : cap < n) :
    Triple True (isVec e v b cap ws) (do reserve T v n; size v)
      (fun r => ⌜r = n ∧ r ≠ ws.length⌝ ∗ ∃ₛ b' cap', isVec e v b' cap' (ws ++ List.replicate (n - ws.length) e.dflt)) := by
  apply vec_facts'; intro hv hcap
  call (reserve_spec (e := e) (v := v) (b := b) (cap := cap) (ws := ws) (k := n) hp)
  intro _
  xintro b' cap' ws' h
  obtain ⟨rfl, _, h2⟩ := h.resolve_right (fun h => h.1 trivial)
  rw [if_pos hn]
  call (vsize_spec (v := v))
  intro r
  xsub
  xexists b', cap'
  cancel
  simp
  omega

/-! ## C20 copy and assign -/

/-- copy is right if the source has no spare capacity. (Missing: the other sources, see `C20_copy_violated`.) -/
theorem C20_copy_partial {e : ElemSpec True (T ty) W} (hp : e.Plain) (hty : ty ≠ 0) (hfit : ws.length = cap) :
    Triple True (isVec e v b cap ws) (copy T v) (fun r => isVec e v b cap ws ∗ ∃ₛ b', isVec e r b' cap ws) := by
  refine Triple.post (copy_spec hp hty) ?_
  intro r
  rw [hfit, Nat.sub_self, List.replicate_zero, List.append_nil]
  exact ent_refl _

/-- If the source has spare capacity, the copy has as many elements as the source has capacity: more than the source. -/
theorem C20_copy_violated {e : ElemSpec True (T ty) W} (hp : e.Plain) (hty : ty ≠ 0) (hspare : ws.length < cap) :
    Triple True (isVec e v b cap ws) (do let r ← copy T v; let n ← size r; pure (r, n))
      (fun r => ⌜r.2 = cap ∧ r.2 ≠ ws.length⌝ ∗ isVec e v b cap ws ∗ ∃ₛ b', isVec e r.1 b' cap (ws ++ List.replicate (cap - ws.length) e.dflt)) := by
  call (copy_spec (e := e) (v := v) (b := b) (cap := cap) (ws := ws) hp hty)
  intro r
  xintro b'
  call (vsize_spec (v := r))
  intro n
  xsub
  apply Triple.ret
  dsimp only
  xexists b'
  cancel
  simp
  omega

/-- assign is right if the source has no spare capacity and the target has less capacity, or the source is empty and the target has enough capacity.
(Missing: all other cases, see `C20_assign_violated`.) -/
theorem C20_assign_partial {e : ElemSpec True (T ty) W} {v2 b2 cap2 : Nat} {ws2 : List W} (hp : e.Plain)
    (h : (cap < cap2 ∧ ws2.length = cap2) ∨ (cap2 ≤ cap ∧ ws2 = [])) :
    Triple True (isVec e v b cap ws ∗ isVec e v2 b2 cap2 ws2) (assign T v v2)
      (fun r => ⌜r = v⌝ ∗ isVec e v2 b2 cap2 ws2 ∗ ∃ₛ b' cap', isVec e v b' cap' ws2) := by
  refine Triple.post (assign_spec hp) ?_
  intro r
  xintro hr b'
  rcases h with ⟨h1, h2⟩ | ⟨h1, rfl⟩
  · rw [if_pos h1, if_pos h1, h2, Nat.sub_self, List.replicate_zero, List.append_nil]
    xexists b', _
    cancel
  · rw [if_neg (by omega), if_neg (by omega)]
    xexists b', _
    cancel

/-- In all other cases the target does not end up with the source's elements: it is empty if its capacity was sufficient, and has the source's capacity as
size otherwise. -/
theorem C20_assign_violated {e : ElemSpec True (T ty) W} {v2 b2 cap2 : Nat} {ws2 : List W} (hp : e.Plain)
    (h : ¬ ((cap < cap2 ∧ ws2.length = cap2) ∨ (cap2 ≤ cap ∧ ws2 = []))) :
    Triple True (isVec e v b cap ws ∗ isVec e v2 b2 cap2 ws2) (do let _ ← assign T v v2; size v)
      (fun r => ⌜r = (if cap < cap2 then cap2 else 0) ∧ r ≠ ws2.length⌝ ∗ isVec e v2 b2 cap2 ws2 ∗ ∃ₛ b' cap' ws', isVec e v b' cap' ws') := by
  rw [sep_comm]
  apply vec_facts; intro _ hcap2
  rw [sep_comm]
  call (assign_spec (e := e) (v := v) (b := b) (cap := cap) (ws := ws) (v2 := v2) (b2 := b2) (cap2 := cap2) (ws2 := ws2) hp)
  intro r
  xintro hr b'
  call (vsize_spec (v := v))
  intro n
  xsub
  xexists b', _, _
  cancel
  by_cases hc : cap < cap2
  · simp only [if_pos hc]
    simp
    omega
  · simp only [if_neg hc]
    refine ⟨rfl, ?_⟩
    intro h0
    exact h (Or.inr ⟨by omega, List.length_eq_zero_iff.1 h0.symm⟩)

theorem C20_assign_self : Triple nf (isVec e v b cap ws) (assign T v v) (fun r => ⌜r = v⌝ ∗ isVec e v b cap ws) := assign_self

/-! ## C21 references into the vector -/

/-- push_back of one of the vector's own elements copies it, if there is room. (Missing: full vectors, see `C21_push_back_violated`.) -/
theorem C21_push_back_partial {j : Nat} {w : W} (hj : ws[j]? = some w) (hroom : ws.length < cap) :
    Triple nf (isVec e v b cap ws) (do let r ← at_ v j; pushBack T v r) (fun _ => isVec e v b cap (ws ++ [w])) := by
  have hlen : j < ws.length := (List.getElem?_eq_some_iff.1 hj).1
  have h := runOp_spec (T := T) (e := e) (R := emp) (ρ := fun _ => w) (v := v) (b := b) (cap := cap) (ws := ws) (op := .pushBackAlias j) ⟨hlen, hroom⟩
  rw [sep_emp] at h
  call (at_spec (v := v))
  intro r
  xsub
  apply Triple.fact (p := b ≠ 0)
  · rintro h hh rfl
    rw [← sep_emp (isVec e v 0 cap ws)] at hh
    have := vec_cap0 hh
    omega
  intro hb
  have := pushBack_room (e := e) (v := v) (R := emp) (b := b) (cap := cap) (value := (b, 1 + j)) hb hroom (CanCopy.live hj).frame
  rw [sep_emp] at this
  refine Triple.post this ?_
  intro _
  cancel

/-- push_back of one of the vector's own elements reads freed memory if the vector is full. -/
theorem C21_push_back_violated {t : Ty V} {ws : List V} {j : Nat} (hj : j < ws.length) (hfull : ws.length = cap) :
    Bad (isVec (T := fun _ => plainOps t) (ty := ty) (plainSpec (nf := True) t) v b cap ws) (do
      let r ← at_ v j
      pushBack (fun _ => plainOps t) v r) :=
  pushBack_alias_bad (T := fun _ => plainOps t) rfl (plain_plain t) hj hfull

/-- insert of one of the vector's own elements (number `j`) at position `i`, with room to spare: correct for an element in front of the position … -/
theorem C21_insert_partial {i j : Nat} {w : W} (hj : ws[j]? = some w) (hji : j < i) (hi : i ≤ ws.length) (hroom : ws.length < cap) :
    Triple nf (isVec e v b cap ws) (do let r ← at_ v j; let p ← iterAt v i; insert T v p r)
      (fun r => ⌜r = (b, 1 + i)⌝ ∗ isVec e v b cap (ws.take i ++ w :: ws.drop i)) := by
  refine insert_alias hi (by omega) (by omega) hroom ?_
  rw [if_pos hji]; exact hj

/-- … but for an element behind the position the element before it is copied instead. -/
theorem C21_insert_violated {i j : Nat} {w : W} (hj : ws[j - 1]? = some w) (hij : i < j) (hjl : j < ws.length) (hroom : ws.length < cap) :
    Triple nf (isVec e v b cap ws) (do let r ← at_ v j; let p ← iterAt v i; insert T v p r)
      (fun r => ⌜r = (b, 1 + i)⌝ ∗ isVec e v b cap (ws.take i ++ w :: ws.drop i)) := by
  refine insert_alias (by omega) hjl (by omega) hroom ?_
  rw [if_neg (by omega)]; exact hj

/-- inserting element 2 (the value 3) of `[1, 2, 3]` in front inserts 2 -/
example {nf : Prop} {v b : Nat} : Triple nf (isVec (T := fun _ => plainOps intTy) (ty := 1) (plainSpec (nf := nf) intTy) v b 8 [1, 2, 3])
      (do let r ← at_ v 2; let p ← iterAt v 0; insert (fun _ => plainOps intTy) v p r)
      (fun r => ⌜r = (b, 1)⌝ ∗ isVec (T := fun _ => plainOps intTy) (ty := 1) (plainSpec (nf := nf) intTy) v b 8 [2, 1, 2, 3]) :=
  C21_insert_violated (i := 0) (j := 2) (w := 2) rfl (by omega) (by simp) (by simp)

/-! ## C22 every element is destroyed exactly once -/

/-- Element types that own resources (any proper element type, `ElemSpec`): create, any history that never reallocates a non-empty vector, destroy.  Afterwards the
memory is bit for bit what it was: everything created was destroyed, nothing twice (a second destruction of an object would need resources that are gone).
(Missing: histories that reallocate, see `C22_violated`; for plain data they are included here.) -/
theorem C22_lifecycle_partial {ops : List Op} {ρ : Loc → W} (hty : ty ≠ 0) (m : Mem V) (hm : nf → ∀ t, m.orc t ≠ 0)
    (hv : ValidOps e (exactly m.cells) ρ ops ⟨0, []⟩) :
    ∃ m' : Mem V, (do
        let v ← create ty
        if v = 0 then pure () else do
        runOps T v ops
        destroy T v : M V Unit) m = some (.ok ((), m')) ∧ m'.cells = m.cells := by
  have ht : Triple nf (exactly m.cells) (do
        let v ← create ty
        if v = 0 then pure () else do
        runOps T v ops
        destroy T v) (fun _ => exactly m.cells) := by
    apply create_spec (e := e) hty
    · intro _
      rw [if_pos rfl]
      exact Triple.ret (ent_refl _)
    · intro v hv0
      rw [if_neg hv0]
      refine Triple.bind (runOps_spec hv) ?_
      intro _
      xintro b' cap' ws' h
      call (destroy_spec (v := v))
      intro _
      rw [emp_sep]
      exact ent_refl _
  obtain ⟨_, m', h1, _, h2⟩ := ht.run (F := emp) (s := m) hm (by rw [sep_emp]; exact (rfl : m.cells = m.cells))
  rw [sep_emp] at h2
  exact ⟨m', h1, h2⟩

/-- a type that owns memory is a proper element type -/
example (t : Ty Nat) : ElemSpec True (boxOps t) Nat := boxSpec t

/-- a valid history for elements that own memory: three elements at once, pop, push a copy of element 0, erase -/
example (ρ : Loc → Nat) (t : Ty Nat) (R : HProp Nat) (hρ : ρ (1, 1) = 7) :
    ValidOps (boxSpec t) (cell (boxSpec t) (1,1) 7 ∗ R) ρ
      [.resizeWithValue 3 (1,1), .popBack, .pushBackAlias 0, .erase 1, .clear] ⟨0, []⟩ := by
  have r1 : Holds (boxSpec t) (cell (boxSpec t) (1,1) 7 ∗ R) (1,1) (ρ (1,1)) := by
    rw [hρ]; exact ⟨by simp, R, rfl⟩
  refine ⟨⟨r1, Or.inr (Or.inl rfl)⟩, fun s1 h1 => ⟨trivial, fun s2 h2 => ⟨?_, fun s3 h3 => ⟨?_, fun s4 h4 => ⟨trivial, fun _ _ => trivial⟩⟩⟩⟩⟩
  all_goals obtain ⟨c1, w1⟩ := s1
  all_goals obtain ⟨a1, a2, a3⟩ := h1.resolve_right (fun h => h.1 trivial)
  all_goals simp only at a1 a2 a3
  all_goals subst a1
  all_goals simp at a3
  · rw [h2]
    simp [Valid]
    omega
  · obtain ⟨w, _, rfl⟩ := h3
    rw [h2]
    simp [Valid]

/-- destroy releases exactly the vector and its elements: the rest of the memory (`F`) is all that remains -/
theorem C22_destroy {F : HProp V} {m : Mem V} (hnf : nf → ∀ t, m.orc t ≠ 0) (hm : (isVec e v b cap ws ∗ F) m.cells) :
    ∃ m' : Mem V, destroy T v m = some (.ok ((), m')) ∧ F m'.cells := by
  obtain ⟨_, m', h1, _, h2⟩ := (destroy_spec (e := e)).run (F := F) hnf hm
  rw [emp_sep] at h2
  exact ⟨m', h1, h2⟩

/-- Relocation destroys the elements although their bits live on: a vector of elements that own memory, with spare capacity, is shrunk and then destroyed —
the first element is destroyed a second time. -/
theorem C22_violated {t : Ty V} {w : V} {ws : List V} (hspare : (w :: ws).length < cap) :
    Bad (isVec (T := fun _ => boxOps t) (ty := ty) (boxSpec t) v b cap (w :: ws)) (do
      shrinkToFit (fun _ => boxOps t) v
      destroy (fun _ => boxOps t) v) := shrink_destroy_bad hspare

/-- such vectors exist: three elements that own memory, capacity 4 -/
example (t : Ty Nat) : ∃ (m : Mem Nat) (v b a : Addr), (isVec (T := fun _ => boxOps t) (ty := 1) (boxSpec t) v b 4 [t.dflt, t.dflt, t.dflt] ∗ blk a 1 ∗ cell (boxSpec t) (a, 1) t.dflt) m.cells := by
  obtain ⟨m, v, b, a, _, hm⟩ := exists_vec_spare (T := fun _ => boxOps t) (ty := 1) (boxSpec t) (by simp) 3 1 (by simp)
  exact ⟨m, v, b, a, hm⟩

/-! ## C23 allocation failure -/

/-- With any allocator push_back either appends the value or leaves the vector exactly as it was; the latter only if it was full. -/
theorem C23_push_back {e : ElemSpec False (T ty) W} {value : Loc} {w : W} (hv0 : value.1 ≠ 0) (hp : e.Plain ∨ ws = [] ∨ ws.length < cap) :
    Triple False (isVec e v b cap ws ∗ cell e value w) (pushBack T v value)
      (fun _ => ∃ₛ b' cap' ws', ⌜ws' = ws ++ [w] ∨ (ws.length = cap ∧ ws' = ws ∧ b' = b ∧ cap' = cap)⌝ ∗ isVec e v b' cap' ws' ∗ cell e value w) := by
  refine Triple.post (pushBack_spec hv0 hp) ?_
  intro _
  xintro b' cap' ws' h
  xexists b', cap', ws'
  cancel
  exact h.imp (fun h => h.1) (fun h => h.2)

/-- likewise insert_n, where the code asks for enough memory (C18); after a failure it returns end -/
theorem C23_insert_n {e : ElemSpec False (T ty) W} {X Y : List W} {count : Nat} {value : Loc} {w : W} (hv0 : value.1 ≠ 0)
    (hroom : (X ++ Y).length + count ≤ cap ∨ (X ++ Y).length = cap ∨ (X ++ Y).length + count ≤ 2 * cap)
    (hp : e.Plain ∨ X ++ Y = [] ∨ (X ++ Y).length + count ≤ cap) :
    Triple False (isVec e v b cap (X ++ Y) ∗ cell e value w) (insertN T v (b, 1 + X.length) count value)
      (fun r => ∃ₛ b' cap' ws', ⌜(ws' = X ++ List.replicate count w ++ Y ∧ r = (b', 1 + X.length)) ∨
          (cap < (X ++ Y).length + count ∧ ws' = X ++ Y ∧ b' = b ∧ cap' = cap ∧ r = (b', 1 + ws'.length))⌝ ∗ isVec e v b' cap' ws' ∗ cell e value w) := by
  apply vec_facts; intro hv hcap
  refine Triple.post (insertN_spec hv0 ?_ hp) ?_
  · unfold insCap newCap
    split
    · split <;> omega
    · omega
  · intro r
    xintro b' cap' ws' h
    xexists b', cap', ws'
    cancel
    obtain ⟨h1, h2⟩ := h
    rcases h2 with ⟨h2, h3⟩ | ⟨h2, _, h5, h6, h7, h8⟩
    · exact Or.inl ⟨h3, h2⟩
    · right; subst h6 h7 h8; exact ⟨h5, rfl, rfl, rfl, h2⟩

/-- likewise resize_with_value (`resize` is the case of the NULL value, standing for the default value: `arg`) -/
theorem C23_resize {e : ElemSpec False (T ty) W} {n : Nat} {value : Loc} {w : W} (hp : e.Plain ∨ ws = [] ∨ n ≤ cap) :
    Triple False (isVec e v b cap ws ∗ arg e value w) (resizeWithValue T v n value)
      (fun _ => ∃ₛ b' cap' ws', ⌜ws' = ws.take n ++ List.replicate (n - ws.length) w ∨ (cap < n ∧ ws' = ws ∧ b' = b ∧ cap' = cap)⌝ ∗
        isVec e v b' cap' ws' ∗ arg e value w) := by
  refine Triple.post (resizeWithValue_spec hp) ?_
  intro _
  xintro b' cap' ws' h
  xexists b', cap', ws'
  cancel
  exact h.imp (fun h => h.1) (fun h => h.2)

/-- shrink_to_fit never changes the contents; the capacity becomes the size unless the allocation failed -/
theorem C23_shrink_to_fit (hp : e.Plain ∨ ws = [] ∨ ws.length = cap) :
    Triple nf (isVec e v b cap ws) (shrinkToFit T v)
      (fun _ => ∃ₛ b' cap', ⌜cap' = ws.length ∨ (¬ nf ∧ b' = b ∧ cap' = cap)⌝ ∗ isVec e v b' cap' ws) := shrinkToFit_spec hp

/-- create returns NULL and allocates nothing, or returns a fresh empty vector -/
theorem C23_create (hty : ty ≠ 0) :
    Triple nf emp (create ty) (fun r => ⌜r = 0 → ¬ nf⌝ ∗ if r = 0 then emp else isVec e r 0 0 []) := by
  rw [← bind_pure (create ty)]
  apply create_spec (e := e) hty
  · intro h
    apply Triple.ret
    rw [if_pos rfl]
    cancel
    exact fun _ => h
  · intro l hl
    apply Triple.ret
    rw [if_neg hl]
    cancel
    exact fun h => absurd h hl

/-- plain data is a proper element type also when the allocator fails -/
example : ElemSpec False (plainOps intTy) Nat := plainSpec intTy

end CC.Vec
