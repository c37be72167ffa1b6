import Verif.List.History
import Verif.List.OwnRemove
/-!
# Properties C01–C12: `c_list`

`isList l s ty xs` (Verif/List/Rep.lean) says that a heap fragment is exactly a well-formed list object `l` holding the
elements `xs`; an element carries its address (`node`, `box`) and its value.  `Triple nf P m Q` (Verif/Core/Sep.lean)
says that in every memory containing a fragment `P`, with every allocator (never failing if `nf`), the call `m` terminates
without undefined behaviour or abort, turns that fragment into one satisfying `Q result` and leaves the rest of the
memory untouched.  `∗` joins disjoint fragments.
-/
namespace CC.CList
open CC.Tac
variable {V : Type} {E : Types V} {l s o s2 : Addr} {ty t2 : Nat} {xs ys : List (Elem V)} {R : HProp V}

/-! ## There are such memories -/

/-- Non-vacuity for everything below: for all values `vs`, a memory holding a list of `vs` exists and is reached by the API
itself (`c_list_create_from`). -/
theorem exists_list (E : Types V) (ty : Nat) (hty : ty ≠ 0) (vs : List V) (hvs : vs ≠ []) :
    ∃ (m : Mem V) (l s : Addr) (xs : List (Elem V)), (∀ t, m.orc t ≠ 0) ∧ vals xs = vs ∧
      (isList l s ty xs ∗ arr 1 1 (vs.map fun v => .obj (some v))) m.cells := by
  obtain ⟨m, ho, hm⟩ := exists_array vs (fun _ => 1)
  obtain ⟨r, m', _, ho', hm'⟩ := (createFrom_spec (nf := True) (E := E) (b := 1) (i := 1) hty (by omega) hvs).run
    (F := emp) (s := m) (fun _ t => by rw [ho]; simp) (by rw [sep_emp]; exact hm)
  rw [sep_emp, sep_comm, hex_sep] at hm'
  obtain ⟨s', hm'⟩ := hm'
  rw [hex_sep] at hm'
  obtain ⟨N, hm'⟩ := hm'
  rw [sep_assoc, hpure_sep_apply] at hm'
  obtain ⟨⟨h1, _, h3⟩, hm'⟩ := hm'
  have hr : r ≠ 0 := fun h => h1 h trivial
  rw [if_neg hr] at hm'
  exact ⟨m', r, s', N, by rw [ho', ho]; simp, h3 trivial, hm'⟩

example : ∃ (m : Mem Nat) (l s : Addr) (xs : List (Elem Nat)), vals xs = [3, 1, 2] ∧
    (isList l s 1 xs ∗ arr 1 1 ([3, 1, 2].map fun v => .obj (some v))) m.cells := by
  obtain ⟨m, l, s, xs, _, h, hm⟩ := exists_list (V := Nat) (fun _ => ⟨0, fun a b => a < b, fun a b => a == b⟩) 1 (by simp) [3, 1, 2] (by simp)
  exact ⟨m, l, s, xs, h, hm⟩

/-! ## C01 edits -/

/-- push_back appends one copy of the value (which may live anywhere, in particular inside the list: `R = emp`). -/
theorem C01_push_back {value : Loc} {v : V} (hv0 : value.1 ≠ 0) (hv : Reads (isList l s ty xs ∗ R) value v) :
    Triple True (isList l s ty xs ∗ R) (pushBack E l value)
      (fun _ => ∃ₛ e, ⌜e.val = v⌝ ∗ isList l s ty (xs ++ [e]) ∗ R) := by
  refine Triple.post (pushBack_spec hv0 hv) ?_
  intro _
  xintro N ⟨h1, h2⟩
  rcases h2 with rfl | ⟨e, rfl, he⟩
  · exact absurd rfl (h1 trivial)
  · xexists e
    cancel

theorem C01_push_front {value : Loc} {v : V} (hv0 : value.1 ≠ 0) (hv : Reads (isList l s ty xs ∗ R) value v) :
    Triple True (isList l s ty xs ∗ R) (pushFront E l value)
      (fun _ => ∃ₛ e, ⌜e.val = v⌝ ∗ isList l s ty (e :: xs) ∗ R) := by
  refine Triple.post (pushFront_spec hv0 hv) ?_
  intro _
  xintro N ⟨h1, h2⟩
  rcases h2 with rfl | ⟨e, rfl, he⟩
  · exact absurd rfl (h1 trivial)
  · xexists e
    cancel

/-- insert in front of the position of `Y` (`end` if `Y = []`); the result is the position of the new element. -/
theorem C01_insert {X Y : List (Elem V)} {value : Loc} {v : V} (hv0 : value.1 ≠ 0)
    (hv : Reads (isList l s ty (X ++ Y) ∗ R) value v) :
    Triple True (isList l s ty (X ++ Y) ∗ R) (insert E l (firstN Y s) value)
      (fun r => ∃ₛ e, ⌜e.val = v ∧ r = e.node⌝ ∗ isList l s ty (X ++ e :: Y) ∗ R) := by
  refine Triple.post (insert_spec hv0 hv) ?_
  intro r
  xintro N ⟨h1, h2, h3⟩
  rcases h2 with rfl | ⟨e, rfl, he⟩
  · exact absurd rfl (h1 trivial)
  · xexists e
    rw [List.append_assoc, List.singleton_append]
    cancel

theorem C01_pop_back {nf : Prop} :
    Triple nf (isList l s ty xs) (popBack l) (fun _ => isList l s ty xs.dropLast) := popBack_spec

theorem C01_pop_front {nf : Prop} :
    Triple nf (isList l s ty xs) (popFront l) (fun _ => isList l s ty xs.tail) := popFront_spec

/-- erase removes the designated element and returns the position after it -/
theorem C01_erase {nf : Prop} {X Y : List (Elem V)} {e : Elem V} :
    Triple nf (isList l s ty (X ++ e :: Y)) (erase l e.node)
      (fun r => ⌜r = firstN Y s⌝ ∗ isList l s ty (X ++ Y)) := erase_spec

/-- erase(end) does nothing -/
theorem C01_erase_end {nf : Prop} :
    Triple nf (isList l s ty xs) (erase l s) (fun r => ⌜r = s⌝ ∗ isList l s ty xs) := erase_end

theorem C01_erase_range {nf : Prop} {X Y Z : List (Elem V)} :
    Triple nf (isList l s ty (X ++ Y ++ Z)) (eraseRange l (firstN Y (firstN Z s)) (firstN Z s))
      (fun r => ⌜r = firstN Z s⌝ ∗ isList l s ty (X ++ Z)) := eraseRange_spec

theorem C01_clear {nf : Prop} : Triple nf (isList l s ty xs) (clear l) (fun _ => isList l s ty []) := clear_spec

/-- resize_with_value cuts the list to `n` elements or appends copies of the value until it has `n`. -/
theorem C01_resize_with_value {n : Nat} {value : Loc} {v : V} (hv0 : value.1 ≠ 0) (hv : Reads R value v) :
    Triple True (isList l s ty xs ∗ R) (resizeWithValue E l n value)
      (fun _ => ∃ₛ N, ⌜vals N = List.replicate (n - xs.length) v⌝ ∗ isList l s ty (xs.take n ++ N) ∗ R) := by
  refine Triple.post (resizeWithValue_spec (v := v) (fun N => Or.inr ⟨hv0, hv.right⟩)) ?_
  intro _
  xintro N ⟨⟨k, h1, h2⟩, h3⟩
  xexists N
  cancel
  have := congrArg List.length h2
  simp only [List.length_map, List.length_replicate, h3 trivial] at this
  rw [h2, this]

/-- resize appends default-constructed elements -/
theorem C01_resize {n : Nat} :
    Triple True (isList l s ty xs ∗ R) (resize E l n)
      (fun _ => ∃ₛ N, ⌜vals N = List.replicate (n - xs.length) (E ty).dflt⌝ ∗ isList l s ty (xs.take n ++ N) ∗ R) := by
  refine Triple.post (resizeWithValue_spec (fun N => Or.inl ⟨rfl, rfl⟩)) ?_
  intro _
  xintro N ⟨⟨k, h1, h2⟩, h3⟩
  xexists N
  cancel
  have := congrArg List.length h2
  simp only [List.length_map, List.length_replicate, h3 trivial] at this
  rw [h2, this]

theorem C01_size {nf : Prop} :
    Triple nf (isList l s ty xs) (size l) (fun r => ⌜r = xs.length⌝ ∗ isList l s ty xs) := size_spec
theorem C01_empty {nf : Prop} :
    Triple nf (isList l s ty xs) (empty l) (fun r => ⌜r = true ↔ xs = []⌝ ∗ isList l s ty xs) := by
  refine Triple.post empty_spec ?_
  intro r
  xsub
  cancel
  exact List.isEmpty_iff
/-- front is a reference to the first element, NULL for the empty list -/
theorem C01_front {nf : Prop} :
    Triple nf (isList l s ty xs) (front l)
      (fun r => ⌜r = match xs.head? with | none => (0, 1) | some e => (e.box, 1)⌝ ∗ isList l s ty xs) := by
  have := front_spec (nf := nf) (l := l) (s := s) (ty := ty) (xs := xs)
  cases xs <;> exact this
theorem C01_back {nf : Prop} :
    Triple nf (isList l s ty xs) (back l)
      (fun r => ⌜r = match xs.getLast? with | none => (0, 1) | some e => (e.box, 1)⌝ ∗ isList l s ty xs) := back_spec

/-- Every history of operations (including operations whose value argument is an element of the list itself) does what the
operations mean on sequences (`Step`, Verif/List/History.lean). -/
theorem C01_history {nf : Prop} {ops : List (Op V)} {ρ : Loc → V} (hty : ty ≠ 0) (hv : ValidOps E ty R ρ nf ops xs) :
    Triple nf (isList l s ty xs ∗ R) (runOps E l ops)
      (fun _ => ∃ₛ s' ys, ⌜Steps E ty ρ nf ops xs ys⌝ ∗ isList l s' ty ys ∗ R) := runOps_spec hty hv

/-- a valid history: push 7 and 8 at the back, insert a copy of element 0 at position 1, erase position 0, sort, reverse -/
example (lt : Nat → Nat → Bool) (ρ : Loc → Nat) (hρ : ρ (1, 1) = 7 ∧ ρ (2, 1) = 8) :
    ValidOps (fun _ => ⟨0, lt, fun a b => a == b⟩) 1
      (pts (1,1) (.obj (some 7)) ∗ pts (2,1) (.obj (some 8))) ρ True
      [.pushBack (1,1), .pushBack (2,1), .insertAlias 1 0, .erase 0, .reverse] [] := by
  have r1 : Reads (pts (1,1) (.obj (some 7)) ∗ pts (2,1) (.obj (some 8))) (1,1) (ρ (1,1)) := by
    rw [hρ.1]; exact Reads.pts.left
  have r2 : Reads (pts (1,1) (.obj (some 7)) ∗ pts (2,1) (.obj (some 8))) (2,1) (ρ (2,1)) := by
    rw [hρ.2]; exact Reads.pts.right
  refine ⟨⟨by simp, r1⟩, fun ys hy => ⟨⟨by simp, r2⟩, fun zs hz => ⟨?_, fun ws hw => ⟨?_, fun us _ => ⟨trivial, fun _ _ => trivial⟩⟩⟩⟩⟩
  · obtain ⟨e, _, rfl⟩ | ⟨h, _⟩ := hy
    · obtain ⟨e', _, rfl⟩ | ⟨h, _⟩ := hz
      · simp [Valid]
      · exact absurd trivial h
    · exact absurd trivial h
  · simp [Valid]

/-! ## C02 walking both ways -/

/-- In every list, reading from begin to end gives the elements in order … -/
theorem C02_forward {nf : Prop} :
    Triple nf (isList l s ty xs) (readAll l) (fun r => ⌜r = vals xs⌝ ∗ isList l s ty xs) := readAll_spec

/-- … and reading from rbegin to rend gives them in the opposite order. -/
theorem C02_backward {nf : Prop} :
    Triple nf (isList l s ty xs) (readAllRev l) (fun r => ⌜r = (vals xs).reverse⌝ ∗ isList l s ty xs) := readAllRev_spec

/-- incrementing `n` times and decrementing `n` times are inverse -/
theorem C02_advance {nf : Prop} {X Y Z : List (Elem V)} :
    Triple nf (isList l s ty (X ++ Y ++ Z)) (do
        let p ← iterAdvance (firstN Y (firstN Z s)) (Y.length : Int)
        let q ← iterAdvance p (-(Y.length : Int))
        pure (p, q))
      (fun r => ⌜r = (firstN Z s, firstN Y (firstN Z s))⌝ ∗ isList l s ty (X ++ Y ++ Z)) := by
  have h1 : ∀ a : Addr, iterAdvance (V := V) a (Y.length : Int) = advanceFwd a Y.length := fun _ => rfl
  have h2 : ∀ a : Addr, iterAdvance (V := V) a (-(Y.length : Int)) = advanceBwd a Y.length := by
    intro a
    cases h : Y.length with
    | zero => rfl
    | succ n => rw [show (-((n + 1 : Nat) : Int)) = Int.negSucc n from rfl]; rfl
  simp only [h1, h2]
  call advanceFwd_spec
  intro r
  xsub
  call advanceBwd_spec
  intro r
  xsub
  apply Triple.ret
  cancel

/-- The same for reverse iterators, which advance towards the front and back again; the distance from the one to the other is the number of steps. -/
theorem C02_reverse {nf : Prop} {X Y Z : List (Elem V)} :
    Triple nf (isList l s ty (X ++ Y ++ Z)) (do
        let p ← revAdvance (firstN Z s) (Y.length : Int)
        let q ← revAdvance p (-(Y.length : Int))
        let n ← revDistanceLoop (firstN Z s) p 0
        pure (p, q, n))
      (fun r => ⌜r = (firstN Y (firstN Z s), firstN Z s, Y.length)⌝ ∗ isList l s ty (X ++ Y ++ Z)) := by
  have h1 : ∀ a : Addr, revAdvance (V := V) a (Y.length : Int) = advanceBwd a Y.length := fun _ => rfl
  have h2 : ∀ a : Addr, revAdvance (V := V) a (-(Y.length : Int)) = advanceFwd a Y.length := by
    intro a
    cases h : Y.length with
    | zero => rfl
    | succ n => rw [show (-((n + 1 : Nat) : Int)) = Int.negSucc n from rfl]; rfl
  simp only [h1, h2]
  call advanceBwd_spec
  intro r
  xsub
  call advanceFwd_spec
  intro r
  xsub
  call revDistanceLoop_spec
  intro r
  xsub
  apply Triple.ret
  cancel
  simp

/-- one step of a reverse iterator: it designates the element before its base, incrementing and decrementing are inverse -/
theorem C02_reverse_step {nf : Prop} {X Z : List (Elem V)} {e : Elem V} :
    Triple nf (isList l s ty (X ++ e :: Z)) (do
        let r ← revDereference (firstN Z s)
        let p ← revIncrement (firstN Z s)
        let q ← revDecrement p
        pure (r, p, q))
      (fun r => ⌜r = ((e.box, 1), e.node, firstN Z s)⌝ ∗ isList l s ty (X ++ e :: Z)) := by
  have hl : X ++ e :: Z = (X ++ [e]) ++ Z := by simp
  unfold revDereference revIncrement revDecrement
  rw [hl]
  step
  call prv_spec
  intro r
  xsub
  rw [lastN_append_cons, lastN_nil, ← hl]
  call valOf_in
  intro r
  xsub
  rw [hl]
  call prv_spec
  intro r
  xsub
  rw [lastN_append_cons, lastN_nil, ← hl]
  call nxt_spec
  intro r
  xsub
  apply Triple.ret
  cancel

/-- After every history both walks see the same elements. -/
theorem C02_history {nf : Prop} {ops : List (Op V)} {ρ : Loc → V} (hty : ty ≠ 0) (hv : ValidOps E ty R ρ nf ops xs) :
    Triple nf (isList l s ty xs ∗ R) (do
        runOps E l ops
        let a ← readAll l
        let b ← readAllRev l
        let n ← size l
        pure (a, b, n))
      (fun r => ∃ₛ s' ys, ⌜Steps E ty ρ nf ops xs ys ∧ r.1 = vals ys ∧ r.2.1 = r.1.reverse ∧ r.2.2 = r.1.length⌝ ∗
        isList l s' ty ys ∗ R) := by
  refine Triple.bind (runOps_spec hty hv) ?_
  intro _
  xintro s' ys h
  call (readAll_spec (l := l))
  intro r
  xsub
  call (readAllRev_spec (l := l))
  intro r
  xsub
  call (size_spec (l := l))
  intro r
  xsub
  apply Triple.ret
  xexists s', ys
  cancel
  exact ⟨h, rfl, rfl, by simp⟩

/-! ## C03 allocation failure -/

/-- With any allocator, push_back/push_front/insert either add the element or leave the list exactly as it was;
in both cases nothing is leaked (the fragment afterwards is exactly a list). -/
theorem C03_push_back {value : Loc} {v : V} (hv0 : value.1 ≠ 0) (hv : Reads (isList l s ty xs ∗ R) value v) :
    Triple False (isList l s ty xs ∗ R) (pushBack E l value)
      (fun _ => ∃ₛ N, ⌜N = [] ∨ ∃ e, N = [e] ∧ e.val = v⌝ ∗ isList l s ty (xs ++ N) ∗ R) := by
  refine Triple.post (pushBack_spec hv0 hv) ?_
  intro _
  xintro N ⟨h1, h2⟩
  xexists N
  cancel

theorem C03_push_front {value : Loc} {v : V} (hv0 : value.1 ≠ 0) (hv : Reads (isList l s ty xs ∗ R) value v) :
    Triple False (isList l s ty xs ∗ R) (pushFront E l value)
      (fun _ => ∃ₛ N, ⌜N = [] ∨ ∃ e, N = [e] ∧ e.val = v⌝ ∗ isList l s ty (N ++ xs) ∗ R) := by
  refine Triple.post (pushFront_spec hv0 hv) ?_
  intro _
  xintro N ⟨h1, h2⟩
  xexists N
  cancel

theorem C03_insert {X Y : List (Elem V)} {value : Loc} {v : V} (hv0 : value.1 ≠ 0)
    (hv : Reads (isList l s ty (X ++ Y) ∗ R) value v) :
    Triple False (isList l s ty (X ++ Y) ∗ R) (insert E l (firstN Y s) value)
      (fun r => ∃ₛ N, ⌜(N = [] ∨ ∃ e, N = [e] ∧ e.val = v) ∧ r = firstN (N ++ Y) s⌝ ∗ isList l s ty (X ++ N ++ Y) ∗ R) := by
  refine Triple.post (insert_spec hv0 hv) ?_
  intro r
  xintro N ⟨h1, h2, h3⟩
  xexists N
  cancel

theorem C03_resize {n : Nat} :
    Triple False (isList l s ty xs ∗ R) (resize E l n)
      (fun _ => ∃ₛ N, ⌜∃ k, k ≤ n - xs.length ∧ vals N = List.replicate k (E ty).dflt⌝ ∗
        isList l s ty (xs.take n ++ N) ∗ R) := by
  refine Triple.post (resizeWithValue_spec (fun N => Or.inl ⟨rfl, rfl⟩)) ?_
  intro _
  xintro N ⟨h1, h2⟩
  xexists N
  cancel

/-- create returns NULL and allocates nothing, or returns a fresh empty list -/
theorem C03_create {nf : Prop} (hty : ty ≠ 0) :
    Triple (V := V) nf emp (create ty)
      (fun r => ⌜r = 0 → ¬ nf⌝ ∗ if r = 0 then emp else ∃ₛ s, isList r s ty []) := by
  rw [← bind_pure (create ty)]
  apply create_spec hty
  · intro h
    apply Triple.ret
    rw [if_pos rfl]
    cancel
    exact fun _ => h
  · intro l s hl
    apply Triple.ret
    rw [if_neg hl]
    xexists s
    cancel
    exact fun h => absurd h hl

/-- sort leaves the list untouched or sorts it completely; the auxiliary lists are released in any case -/
theorem C03_sort (hty : ty ≠ 0) (hlen : xs.length < 2 ^ 64) {comp : V → V → Bool} (hc : StrictWeak comp) :
    Triple False (isList l s ty xs) (sortBy l (some comp))
      (fun _ => ∃ₛ s' ys, ⌜ys = xs ∨ (ys.Perm xs ∧ Sorted comp (vals ys))⌝ ∗ isList l s' ty ys) := by
  refine Triple.post (sortBy_spec hty hlen) ?_
  intro _
  xintro s' ys ⟨h1, h2⟩
  xexists s', ys
  cancel
  rcases h2 with h2 | h2
  · exact Or.inr ⟨h1.1, by simpa [Sorted, vals, List.pairwise_map] using h2 hc⟩
  · exact Or.inl h2.2

/-! ## C04 no leaks, no foreign memory -/

/-- create, any history of operations, destroy: whatever is in memory and whatever the allocator does, afterwards the memory is
bit for bit what it was before. -/
theorem C04_lifecycle {ops : List (Op V)} {ρ : Loc → V} (hty : ty ≠ 0) (m : Mem V)
    (hv : ValidOps E ty (exactly m.cells) ρ False ops []) :
    ∃ m' : Mem V, (do
        let l ← create ty
        if l = 0 then pure () else do
        runOps E l ops
        destroy l : M V Unit) m = some (.ok ((), m')) ∧ m'.cells = m.cells := by
  have ht : Triple False (exactly m.cells) (do
        let l ← create ty
        if l = 0 then pure () else do
        runOps E l ops
        destroy l) (fun _ => exactly m.cells) := by
    apply create_spec hty
    · intro _
      rw [if_pos rfl]
      exact Triple.ret (ent_refl _)
    · intro l s hl
      rw [if_neg hl]
      refine Triple.bind (runOps_spec hty hv) ?_
      intro _
      xintro s' ys h
      call (destroy_spec (l := l))
      intro _
      rw [emp_sep]
      exact ent_refl _
  obtain ⟨_, m', h1, _, h2⟩ := ht.run (F := emp) (s := m) (fun h => absurd h id) (by rw [sep_emp]; exact (rfl : m.cells = m.cells))
  rw [sep_emp] at h2
  exact ⟨m', h1, h2⟩

/-- destroy releases exactly the list: the rest of the memory (`F`) is all that remains -/
theorem C04_destroy {F : HProp V} {m : Mem V} (hm : (isList l s ty xs ∗ F) m.cells) :
    ∃ m' : Mem V, destroy l m = some (.ok ((), m')) ∧ F m'.cells := by
  obtain ⟨_, m', h1, _, h2⟩ := (destroy_spec (nf := False)).run (F := F) (fun h => absurd h id) hm
  rw [emp_sep] at h2
  exact ⟨m', h1, h2⟩

theorem C04_destroy_null {m : Mem V} : destroy (V := V) 0 m = some (.ok ((), m)) := rfl

/-! ## C05 splice -/

/-- splice_range moves the elements `M` (same nodes, same storage) in front of `Y` -/
theorem C05_splice_range {nf : Prop} {X Y Z M W : List (Elem V)} (hty : ty ≠ 0) :
    Triple nf (isList l s ty (X ++ Y) ∗ isList o s2 ty (Z ++ M ++ W))
      (spliceRange l (firstN Y s) o (firstN M (firstN W s2)) (firstN W s2))
      (fun _ => isList l s ty (X ++ M ++ Y) ∗ isList o s2 ty (Z ++ W)) := spliceRange_spec (by simp [isSame, hty])

theorem C05_splice {nf : Prop} {X Y : List (Elem V)} (hty : ty ≠ 0) :
    Triple nf (isList l s ty (X ++ Y) ∗ isList o s2 ty ys) (splice l (firstN Y s) o)
      (fun _ => isList l s ty (X ++ ys ++ Y) ∗ isList o s2 ty []) := splice_spec (by simp [isSame, hty])

theorem C05_splice_from {nf : Prop} {X Y Z M : List (Elem V)} (hty : ty ≠ 0) :
    Triple nf (isList l s ty (X ++ Y) ∗ isList o s2 ty (Z ++ M)) (spliceFrom l (firstN Y s) o (firstN M s2))
      (fun _ => isList l s ty (X ++ M ++ Y) ∗ isList o s2 ty Z) := spliceFrom_spec (by simp [isSame, hty])

/-- within one list, to a later position (before `Z`) … -/
theorem C05_splice_later {nf : Prop} {X M Y Z : List (Elem V)} (hty : ty ≠ 0) :
    Triple nf (isList l s ty (X ++ M ++ Y ++ Z))
      (spliceRange l (firstN Z s) l (firstN M (firstN Y (firstN Z s))) (firstN Y (firstN Z s)))
      (fun _ => isList l s ty (X ++ Y ++ M ++ Z)) := spliceRange_later (by simp [isSame, hty])

/-- … or to an earlier position (before `Y`) outside the range -/
theorem C05_splice_earlier {nf : Prop} {X Y M Z : List (Elem V)} (hY : Y ≠ []) (hty : ty ≠ 0) :
    Triple nf (isList l s ty (X ++ Y ++ M ++ Z))
      (spliceRange l (firstN Y s) l (firstN M (firstN Z s)) (firstN Z s))
      (fun _ => isList l s ty (X ++ M ++ Y ++ Z)) := spliceRange_earlier hY (by simp [isSame, hty])

/-- lists of different element types are left alone -/
theorem C05_splice_mismatch {nf : Prop} (hty : ty ≠ t2) {pos first last : Addr} :
    Triple nf (isList l s ty xs ∗ isList o s2 t2 ys) (spliceRange l pos o first last)
      (fun _ => isList l s ty xs ∗ isList o s2 t2 ys) := splice_mismatch (by simp [isSame, hty])

/-! ## C06 merge -/

theorem C06_merge {nf : Prop} {comp : V → V → Bool} (hty : ty ≠ 0) :
    Triple nf (isList l s ty xs ∗ isList o s2 ty ys) (mergeBy l o (some comp))
      (fun _ => ∃ₛ zs, ⌜zs.Perm (xs ++ ys) ∧
          (StrictWeak comp → Sorted comp (vals xs) → Sorted comp (vals ys) →
            Sorted comp (vals zs) ∧ StableOf (fun a b => comp a.val b.val) (xs ++ ys) zs)⌝ ∗
        isList l s ty zs ∗ isList o s2 ty []) := by
  refine Triple.post (mergeBy_spec (by simp [isSame, hty])) ?_
  intro _
  xexists mergeL (ltE comp) xs ys
  cancel
  refine ⟨mergeL_perm _ _ _, fun hc hx hy => ⟨?_, mergeL_stable (hc.comap Elem.val) ?_⟩⟩
  · rw [vals_mergeL]; exact mergeL_sorted hc hx hy
  · simpa [Sorted, vals, List.pairwise_map] using hx

/-- merge uses the element type's `less` -/
theorem C06_merge_default {nf : Prop} (hty : ty ≠ 0) :
    Triple nf (isList l s ty xs ∗ isList o s2 ty ys) (merge E l o)
      (fun _ => ∃ₛ zs, ⌜zs.Perm (xs ++ ys) ∧
          (StrictWeak (E ty).less → Sorted (E ty).less (vals xs) → Sorted (E ty).less (vals ys) →
            Sorted (E ty).less (vals zs) ∧ StableOf (fun a b => (E ty).less a.val b.val) (xs ++ ys) zs)⌝ ∗
        isList l s ty zs ∗ isList o s2 ty []) := by
  refine Triple.post (merge_spec (by simp [isSame, hty])) ?_
  intro _
  xexists mergeL (ltE (E ty).less) xs ys
  cancel
  refine ⟨mergeL_perm _ _ _, fun hc hx hy => ⟨?_, mergeL_stable (hc.comap Elem.val) ?_⟩⟩
  · rw [vals_mergeL]; exact mergeL_sorted hc hx hy
  · simpa [Sorted, vals, List.pairwise_map] using hx

example : StrictWeak (fun a b : Nat => decide (a < b)) ∧ Sorted (fun a b : Nat => decide (a < b)) [1, 2, 2, 5] := by
  refine ⟨?_, by simp [Sorted]⟩
  constructor <;> simp <;> omega

/-! ## C07 sort -/

/-- With an allocator that does not fail: a sorted, stable permutation (of the same elements: no copies). -/
theorem C07_sort {comp : V → V → Bool} (hty : ty ≠ 0) (hlen : xs.length < 2 ^ 64) (hc : StrictWeak comp) :
    Triple True (isList l s ty xs) (sortBy l (some comp))
      (fun _ => ∃ₛ s' ys, ⌜ys.Perm xs ∧ Sorted comp (vals ys) ∧ StableOf (fun a b => comp a.val b.val) xs ys⌝ ∗
        isList l s' ty ys) := by
  refine Triple.post (sortBy_spec hty hlen) ?_
  intro _
  xintro s' ys ⟨h1, h2⟩
  xexists s', ys
  cancel
  rcases h2 with h2 | h2
  · exact ⟨h1.1, by simpa [Sorted, vals, List.pairwise_map] using h2 hc, h1.2 hc⟩
  · exact absurd trivial h2.1

/-- `c_list_sort` sorts by the element type's `less` -/
theorem C07_sort_default (hty : ty ≠ 0) (hlen : xs.length < 2 ^ 64) (hc : StrictWeak (E ty).less) :
    Triple True (isList l s ty xs) (sort E l)
      (fun _ => ∃ₛ s' ys, ⌜ys.Perm xs ∧ Sorted (E ty).less (vals ys) ∧ StableOf (fun a b => (E ty).less a.val b.val) xs ys⌝ ∗
        isList l s' ty ys) := by
  refine Triple.post (sort_spec hty hlen) ?_
  intro _
  xintro s' ys ⟨h1, h2⟩
  xexists s', ys
  cancel
  rcases h2 with h2 | h2
  · exact ⟨h1.1, by simpa [Sorted, vals, List.pairwise_map] using h2 hc, h1.2 hc⟩
  · exact absurd trivial h2.1

/-- With any allocator and any comparison function: some permutation, no fault, no leak. -/
theorem C07_sort_any {comp : V → V → Bool} (hty : ty ≠ 0) (hlen : xs.length < 2 ^ 64) :
    Triple False (isList l s ty xs) (sortBy l (some comp))
      (fun _ => ∃ₛ s' ys, ⌜ys.Perm xs⌝ ∗ isList l s' ty ys) := by
  refine Triple.post (sortBy_spec hty hlen) ?_
  intro _
  xintro s' ys ⟨h1, h2⟩
  xexists s', ys
  cancel
  exact h1.1

/-! ## C08 remove -/

theorem C08_remove_if {nf : Prop} {pred : V → Bool} :
    Triple nf (isList l s ty xs) (removeIf l pred) (fun _ => isList l s ty (xs.filter fun e => !pred e.val)) :=
  removeIf_spec

theorem C08_remove {nf : Prop} {value : Loc} {v : V} (hv0 : value.1 ≠ 0) (hv : Reads R value v) :
    Triple nf (isList l s ty xs ∗ R) (remove E l value)
      (fun _ => isList l s ty (xs.filter fun e => !(E ty).equal e.val v) ∗ R) := remove_spec hv0 hv

example : Reads (V := Nat) (pts (1, 1) (.obj (some 5))) (1, 1) 5 := Reads.pts

/-! ## C09 remove with a reference into the list — violated -/

/-- The part that holds: the value does not live in the list. Missing: values that are elements of the list. -/
theorem C09_remove_partial {nf : Prop} {value : Loc} {v : V} (hv0 : value.1 ≠ 0) (hv : Reads R value v) :
    Triple nf (isList l s ty xs ∗ R) (remove E l value)
      (fun _ => isList l s ty (xs.filter fun e => !(E ty).equal e.val v) ∗ R) := remove_spec hv0 hv

/-- The property is false: in *every* list of at least two elements, `c_list_remove(list, c_list_front(list))` is undefined
behaviour (use after free), if equality is reflexive. -/
theorem C09_violated {e1 e2 : Elem V} {Y : List (Elem V)} {F : HProp V} {m : Mem V}
    (hrefl : (E ty).equal e1.val e1.val = true) (hm : (isList l s ty (e1 :: e2 :: Y) ∗ F) m.cells) :
    (do
      let r ← front l
      remove E l r : M V Unit) m = some (.error .ub) := by
  obtain ⟨hl, hs0, hs, hnd⟩ := isList_facts hm
  have hb : e1.box ≠ 0 := by
    have := elt_box_ne (l := l) (s := s) (ty := ty) (X := []) (e := e1) (Y := e2 :: Y) (R := F) (h := m.cells)
    exact this hm
  have hs1 := hs e1 (by simp)
  have hs2 := hs e2 (by simp)
  have hm' := hm
  have e0 : (isList l s ty (e1 :: e2 :: Y) ∗ F) =
      ((blk l 2 ∗ fld l 1 s ∗ fld l 2 ty ∗ blk s 3 ∗ fld s 3 0) ∗ ((fld s 2 e1.node ∗ fld e1.node 1 s) ∗
        (fld e1.node 2 e2.node ∗ fld e2.node 1 e1.node) ∗ path e2.node (nodes Y ++ [s])) ∗
        ((blk e1.node 3 ∗ fld e1.node 3 e1.box ∗ blk e1.box 1 ∗ pts (e1.box, 1) (.obj (some e1.val))) ∗ 
         (blk e2.node 3 ∗ fld e2.node 3 e2.box ∗ blk e2.box 1 ∗ pts (e2.box, 1) (.obj (some e2.val))) ∗ elts Y) ∗ F) := by
    simp only [isList, hdr, elts, elt, List.map_cons, List.cons_append, path, link, sep_assoc]
  rw [e0] at hm'
  have c1 : m.cells (l, 1) = some (.num s) := cell_of hm' (by cancel)
  have c2 : m.cells (l, 2) = some (.num ty) := cell_of hm' (by cancel)
  have c3 : m.cells (s, 2) = some (.num e1.node) := cell_of hm' (by cancel)
  have c4 : m.cells (e1.node, 3) = some (.num e1.box) := cell_of hm' (by cancel)
  have c5 : m.cells (e1.box, 1) = some (.obj (some e1.val)) := cell_of hm' (by cancel)
  -- front
  have hfront : ∀ k : Loc → M V Unit, (front l >>= k) m = k (e1.box, 1) m.bump.bump.bump.bump.bump.bump := by
    intro k
    simp only [front, empty, begin_, end_, if_pos hl, bind_assoc, cassert, bne_iff_ne, ne_eq, hl, not_false_eq_true, if_true, pure_bind]
    rw [run_ldN c1, run_ldN (s := m.bump) c3, run_ldN (s := m.bump.bump) c1]
    rw [show ((e1.node == s) = false) by simpa using hs1]
    simp only [Bool.false_eq_true, if_false, bind_assoc, pure_bind]
    rw [run_ldN (s := m.bump.bump.bump) c1, run_ldN (s := m.bump.bump.bump.bump) c3, run_ldN (s := m.bump.bump.bump.bump.bump) c4]
  rw [hfront]
  simp only [remove, empty, begin_, end_, if_pos hl, bind_assoc, cassert, bne_iff_ne, ne_eq, hl, not_false_eq_true, if_true, pure_bind]
  rw [run_ldN (s := m.bump.bump.bump.bump.bump.bump) c1, run_ldN (s := m.bump.bump.bump.bump.bump.bump.bump) c3, run_ldN (s := m.bump.bump.bump.bump.bump.bump.bump.bump) c1]
  rw [show ((e1.node == s) = false) by simpa using hs1]
  simp only [Bool.false_eq_true, hb, or_self, if_false, bind_assoc, pure_bind]
  rw [run_ldN (s := m.bump.bump.bump.bump.bump.bump.bump.bump.bump) c1, run_ldN (s := m.bump.bump.bump.bump.bump.bump.bump.bump.bump.bump) c3, run_ldN (s := m.bump.bump.bump.bump.bump.bump.bump.bump.bump.bump.bump) c1, removeLoop, if_pos hs1]
  simp only [bind_assoc, pure_bind]
  rw [run_ldN (s := m.bump.bump.bump.bump.bump.bump.bump.bump.bump.bump.bump.bump) c2, run_ldN (s := m.bump.bump.bump.bump.bump.bump.bump.bump.bump.bump.bump.bump.bump) c4, run_ldV (s := m.bump.bump.bump.bump.bump.bump.bump.bump.bump.bump.bump.bump.bump.bump) c5, run_ldV (s := m.bump.bump.bump.bump.bump.bump.bump.bump.bump.bump.bump.bump.bump.bump.bump) c5, if_pos hrefl]
  -- the element is destroyed and released
  have hpop := popNode_spec (nf := False) (l := l) (s := s) (p := s) (q := e2.node) hs1
  have ha : ((fld l 1 s ∗ link s e1.node ∗ link e1.node e2.node ∗ elt e1) ∗ avoid (e1.box, 1)
      ((blk l 2 ∗ fld l 2 ty ∗ blk s 3 ∗ fld s 3 0) ∗ path e2.node (nodes Y ++ [s]) ∗
       (blk e2.node 3 ∗ fld e2.node 3 e2.box ∗ blk e2.box 1 ∗ pts (e2.box, 1) (.obj (some e2.val))) ∗ elts Y ∗ F)) m.cells := by
    rw [show (fld l 1 s ∗ link s e1.node ∗ link e1.node e2.node ∗ elt e1 : HProp V) =
      (pts (e1.box, 1) (.obj (some e1.val)) ∗ (fld l 1 s ∗ link s e1.node ∗ link e1.node e2.node ∗ blk e1.node 3 ∗ fld e1.node 3 e1.box ∗ blk e1.box 1)) by
      unfold elt; ac_rfl]
    apply avoid_intro
    refine (show _ ⊢ₛ _ from ?_) _ hm'
    unfold link
    cancel
  have n1 : ((l, 1) : Loc) ≠ (e1.box, 1) := by
    exact loc_ne_of (v₁ := .num s) (v₂ := .obj (some e1.val)) hm' (by cancel)
  have n2 : ((s, 2) : Loc) ≠ (e1.box, 1) := by simp
  have n3 : ((e2.node, 1) : Loc) ≠ (e1.box, 1) := by
    exact loc_ne_of (v₁ := .num e1.node) (v₂ := .obj (some e1.val)) hm' (by cancel)
  obtain ⟨r, m1, h1, _, h2⟩ := hpop.run (s := m.bump.bump.bump.bump.bump.bump.bump.bump.bump.bump.bump.bump.bump.bump.bump.bump) (fun h => absurd h id) ha
  rw [bind_ok h1]
  rw [sep_assoc, hpure_sep_apply] at h2
  obtain ⟨rfl, h2⟩ := h2
  have h3 : avoid (e1.box, 1) (fld l 1 s ∗ (fld s 2 e2.node ∗ fld e2.node 1 s) ∗ ((blk l 2 ∗ fld l 2 ty ∗ blk s 3 ∗ fld s 3 0) ∗ path e2.node (nodes Y ++ [s]) ∗
       (blk e2.node 3 ∗ fld e2.node 3 e2.box ∗ blk e2.box 1 ∗ pts (e2.box, 1) (.obj (some e2.val))) ∗ elts Y ∗ F)) m1.cells := by
    have h2' : (fld l 1 s ∗ fld s 2 e2.node ∗ fld e2.node 1 s ∗ avoid (e1.box, 1)
      ((blk l 2 ∗ fld l 2 ty ∗ blk s 3 ∗ fld s 3 0) ∗ path e2.node (nodes Y ++ [s]) ∗
       (blk e2.node 3 ∗ fld e2.node 3 e2.box ∗ blk e2.box 1 ∗ pts (e2.box, 1) (.obj (some e2.val))) ∗ elts Y ∗ F)) m1.cells := by
      simpa only [link, sep_assoc] using h2
    have := avoid_pts n1 (sep_mono (ent_refl _) (fun h hh => avoid_pts n2 (sep_mono (ent_refl _) (fun h hh => avoid_pts n3 hh) h hh)) _ h2')
    simpa only [sep_assoc] using this
  obtain ⟨h4, hgone⟩ := h3
  have d2 : m1.cells (l, 2) = some (.num ty) := cell_of h4 (by cancel)
  have d4 : m1.cells (e2.node, 3) = some (.num e2.box) := cell_of h4 (by cancel)
  have d5 : m1.cells (e2.box, 1) = some (.obj (some e2.val)) := cell_of h4 (by cancel)
  rw [removeLoop, if_pos hs2]
  simp only [bind_assoc, pure_bind]
  rw [run_ldN d2, run_ldN (s := m1.bump) d4, run_ldV (s := m1.bump.bump) d5, ldV_unalloc (s := m1.bump.bump.bump) hgone]

/-- … and such lists exist -/
example : ∃ (m : Mem Nat) (l s : Addr) (e1 e2 : Elem Nat) (Y : List (Elem Nat)) (F : HProp Nat),
    (isList l s 1 (e1 :: e2 :: Y) ∗ F) m.cells := by
  obtain ⟨m, l, s, xs, _, h, hm⟩ := exists_list (V := Nat) (fun _ => ⟨0, fun a b => a < b, fun a b => a == b⟩) 1 (by simp) [3, 1, 2] (by simp)
  rcases xs with _ | ⟨e1, _ | ⟨e2, Y⟩⟩
  · simp at h
  · simp at h
  · exact ⟨m, l, s, e1, e2, Y, _, hm⟩

/-- References to elements of the list (`(e.box, 1)` is what `c_list_front`, `c_list_back` and an iterator's dereference return for `e`): the call
is correct for the last element, at any length … -/
theorem C09_own_last_partial {nf : Prop} {X : List (Elem V)} {e : Elem V} :
    Triple nf (isList l s ty (X ++ [e])) (remove E l (e.box, 1))
      (fun _ => isList l s ty ((X ++ [e]).filter fun x => !(E ty).equal x.val e.val)) := remove_own_last

/-- … so `c_list_remove(list, c_list_back(list))` is correct … -/
theorem C09_back_partial {nf : Prop} {X : List (Elem V)} {e : Elem V} :
    Triple nf (isList l s ty (X ++ [e])) (do let r ← back l; remove E l r)
      (fun _ => isList l s ty ((X ++ [e]).filter fun x => !(E ty).equal x.val e.val)) := by
  call back_spec
  intro r
  xsub
  simp only [List.getLast?_append, List.getLast?_singleton, Option.some_or]
  exact remove_own_last

/-- … and for an element that is not equal to itself (such as a NaN), which is never removed … -/
theorem C09_own_kept_partial {nf : Prop} {X Y : List (Elem V)} {e : Elem V} (hirr : (E ty).equal e.val e.val = false) :
    Triple nf (isList l s ty (X ++ e :: Y)) (remove E l (e.box, 1))
      (fun _ => isList l s ty ((X ++ e :: Y).filter fun x => !(E ty).equal x.val e.val)) := remove_own_kept hirr

/-- … and in all other cases it is undefined behaviour: the element is equal to itself and another one follows. Together the three theorems
decide every call with a reference to an own element. -/
theorem C09_own_violated {X Y : List (Elem V)} {e y : Elem V} {F : HProp V} {m : Mem V} (hrefl : (E ty).equal e.val e.val = true)
    (ho : ∀ t, m.orc t ≠ 0) (hm : (isList l s ty (X ++ e :: y :: Y) ∗ F) m.cells) : remove E l (e.box, 1) m = some (.error .ub) :=
  remove_own_bad hrefl m ho hm

/-- … such lists exist: `3 1 2`, removing by a reference to the element 1 in the middle -/
example : ∃ (m : Mem Nat) (l s : Addr) (x e y : Elem Nat) (F : HProp Nat), (∀ t, m.orc t ≠ 0) ∧ e.val = 1 ∧
    (isList l s 1 ([x] ++ e :: y :: []) ∗ F) m.cells := by
  obtain ⟨m, l, s, xs, ho, h, hm⟩ := exists_list (V := Nat) (fun _ => ⟨0, fun a b => a < b, fun a b => a == b⟩) 1 (by simp) [3, 1, 2] (by simp)
  rcases xs with _ | ⟨x, _ | ⟨e, _ | ⟨y, _ | ⟨z, Z⟩⟩⟩⟩ <;> simp at h
  exact ⟨m, l, s, x, e, y, _, ho, h.2.1, hm⟩

/-! ## C10 reverse, unique -/

theorem C10_reverse {nf : Prop} : Triple nf (isList l s ty xs) (reverse l) (fun _ => isList l s ty xs.reverse) := reverse_spec

theorem C10_reverse_twice {nf : Prop} :
    Triple nf (isList l s ty xs) (do reverse l; reverse l) (fun _ => isList l s ty xs) := by
  call reverse_spec
  intro _
  call reverse_spec
  intro _
  rw [List.reverse_reverse]
  cancel

/-- `uniqBy` (Verif/Spec/Order.lean) keeps the first element of every run of elements related to the run's first one. -/
theorem C10_unique {nf : Prop} {pred : V → V → Bool} :
    Triple nf (isList l s ty xs) (uniqueIf l (some pred))
      (fun _ => ∃ₛ ys, ⌜vals ys = uniqBy pred (vals xs) ∧ ys.Sublist xs⌝ ∗ isList l s ty ys) := by
  refine Triple.post uniqueIf_spec ?_
  intro _
  xexists _
  cancel
  exact ⟨by rw [vals, vals, uniqBy_map], uniqBy_sublist _ _⟩

theorem C10_unique_default {nf : Prop} :
    Triple nf (isList l s ty xs) (unique E l)
      (fun _ => ∃ₛ ys, ⌜vals ys = uniqBy (E ty).equal (vals xs) ∧ ys.Sublist xs⌝ ∗ isList l s ty ys) := by
  refine Triple.post unique_spec ?_
  intro _
  xexists _
  cancel
  exact ⟨by rw [vals, vals, uniqBy_map], uniqBy_sublist _ _⟩

/-- no two neighbours of the result of unique are related -/
theorem C10_unique_adjacent {pred : V → V → Bool} {vs X Y : List V} {a b : V}
    (h : uniqBy pred vs = X ++ a :: b :: Y) : pred a b = false := uniqBy_adjacent pred vs X a b Y h

/-! ## C11 copy, assign, swap -/

/-- copy: the source is unchanged; the copy (if the memory suffices) is a separate list with equal values -/
theorem C11_copy (hty : ty ≠ 0) :
    Triple True (isList l s ty xs) (copy E l)
      (fun r => isList l s ty xs ∗ ∃ₛ s' N, ⌜vals N = vals xs⌝ ∗ isList r s' ty N) := by
  refine Triple.post (copy_spec hty) ?_
  intro r
  xintro s' N ⟨h1, h2, h3⟩
  have hr : r ≠ 0 := fun h => h1 h trivial
  rw [if_neg hr]
  xexists s', N
  cancel
  exact h3 trivial

/-- with any allocator: NULL, or a separate list with a subsequence of the values; the source is unchanged -/
theorem C11_copy_any (hty : ty ≠ 0) :
    Triple False (isList l s ty xs) (copy E l)
      (fun r => isList l s ty xs ∗ ∃ₛ s' N, ⌜(vals N).Sublist (vals xs)⌝ ∗ if r = 0 then emp else isList r s' ty N) := by
  refine Triple.post (copy_spec hty) ?_
  intro r
  xintro s' N ⟨h1, h2, h3⟩
  xexists s', N
  cancel

theorem C11_assign :
    Triple True (isList l s ty xs ∗ isList o s2 t2 ys) (assign E l o)
      (fun r => ⌜r = l⌝ ∗ isList o s2 t2 ys ∗ ∃ₛ N, ⌜vals N = vals ys⌝ ∗ isList l s t2 N) := by
  refine Triple.post assign_spec ?_
  intro r
  xintro h N ⟨h2, h3⟩
  xexists N
  cancel
  exact h3 trivial

theorem C11_assign_self {nf : Prop} :
    Triple nf (isList l s ty xs) (assign E l l) (fun r => ⌜r = l⌝ ∗ isList l s ty xs) := assign_self

theorem C11_swap {nf : Prop} :
    Triple nf (isList l s ty xs ∗ isList o s2 t2 ys) (swap l o)
      (fun _ => isList l s2 t2 ys ∗ isList o s ty xs) := swap_spec

theorem C11_swap_self {nf : Prop} :
    Triple nf (isList l s ty xs) (swap l l) (fun _ => isList l s ty xs) := swap_self

/-- create_from copies an array -/
theorem C11_create_from {b i : Nat} {vs : List V} (hty : ty ≠ 0) (hb : b ≠ 0) (hvs : vs ≠ []) :
    Triple True (arr b i (vs.map fun v => .obj (some v))) (createFrom E ty (b, i) vs.length)
      (fun r => (arr b i (vs.map fun v => .obj (some v))) ∗ ∃ₛ s' N, ⌜vals N = vs⌝ ∗ isList r s' ty N) := by
  refine Triple.post (createFrom_spec hty hb hvs) ?_
  intro r
  xintro s' N ⟨h1, h2, h3⟩
  have hr : r ≠ 0 := fun h => h1 h trivial
  rw [if_neg hr]
  xexists s', N
  cancel
  exact h3 trivial

/-! ## C12 references stay valid -/

/-- operations that remove no element -/
def Op.keeps : Op V → Bool
  | .pushBack _ | .pushFront _ | .insert _ _ | .pushBackAlias _ | .insertAlias _ _ | .reverse | .sortBy _
  | .spliceRange _ _ _ => true
  | _ => false

theorem inserted_mem {nf : Prop} {X Y ys : List (Elem V)} {v : V} (h : Inserted nf X Y v ys) {e : Elem V} (he : e ∈ X ++ Y) :
    e ∈ ys := by
  rcases h with ⟨e', _, rfl⟩ | ⟨_, rfl⟩
  · simp only [List.mem_append, List.mem_cons] at he ⊢; grind
  · exact he

theorem step_keeps {nf : Prop} {op : Op V} {ρ : Loc → V} {ys : List (Elem V)} (hk : op.keeps = true)
    (hv : Valid R ρ xs.length op) (h : Step E ty ρ nf op xs ys) :
    ∀ e ∈ xs, e ∈ ys := by
  intro e he
  cases op <;> simp only [Op.keeps, Bool.false_eq_true] at hk <;> simp only [Step] at h
  case pushBack => exact inserted_mem h (by simpa using he)
  case pushFront => exact inserted_mem h (by simpa using he)
  case insert => exact inserted_mem h (by simpa using he)
  case pushBackAlias => obtain ⟨_, _, h⟩ := h; exact inserted_mem h (by simpa using he)
  case insertAlias => obtain ⟨_, _, h⟩ := h; exact inserted_mem h (by simpa using he)
  case reverse => rw [h]; simpa using he
  case sortBy => exact h.1.mem_iff.2 he
  case spliceRange i j k =>
    obtain ⟨h1, h2, h3, h4⟩ := hv
    have cut : ∀ a b, a ≤ b → (xs.drop a).take (b - a) ++ xs.drop b = xs.drop a := by
      intro a b hab
      rw [show xs.drop b = (xs.drop a).drop (b - a) by rw [List.drop_drop]; congr 1; omega, List.take_append_drop]
    split at h
    · rename_i hk
      have : xs = xs.take k ++ ((xs.drop k).take (i - k) ++ ((xs.drop i).take (j - i) ++ xs.drop j)) := by
        rw [cut i j h1, cut k i (by omega), List.take_append_drop]
      rw [this] at he
      rw [h]
      simp only [List.mem_append] at he ⊢
      grind
    · rename_i hk
      have : xs = xs.take i ++ ((xs.drop i).take (j - i) ++ ((xs.drop j).take (k - j) ++ xs.drop k)) := by
        rw [cut j k (by omega), cut i j h1, List.take_append_drop]
      rw [this] at he
      rw [h]
      simp only [List.mem_append] at he ⊢
      grind

/-- After every history of non-removing operations, with every allocator, every element is still at its address with its value:
the node still points to the same storage, and the storage still holds the value. -/
theorem C12_stable {ops : List (Op V)} {ρ : Loc → V} (hty : ty ≠ 0) (hk : ∀ op ∈ ops, Op.keeps op = true)
    (hv : ValidOps E ty R ρ False ops xs) {m : Mem V} (hm : (isList l s ty xs ∗ R) m.cells) :
    ∃ m' : Mem V, runOps E l ops m = some (.ok ((), m')) ∧
      ∀ e ∈ xs, m'.cells (e.node, 3) = some (.num e.box) ∧ m'.cells (e.box, 1) = some (.obj (some e.val)) := by
  obtain ⟨_, m', h1, _, h2⟩ := (runOps_spec (nf := False) hty hv).run (F := emp) (s := m) (fun h => absurd h id) (by rw [sep_emp]; exact hm)
  rw [sep_emp] at h2
  obtain ⟨s', ys, h2⟩ := h2
  rw [hpure_sep_apply] at h2
  obtain ⟨h2, h3⟩ := h2
  refine ⟨m', h1, ?_⟩
  have hmem : ∀ e ∈ xs, e ∈ ys := by
    clear h3 hm h1
    induction h2 with
    | nil => intro e he; exact he
    | @cons op ops xs ys zs hs hss ih =>
      intro e he
      exact ih (fun op ho => hk op (by simp [ho])) (hv.2 _ hs) e (step_keeps (hk op (by simp)) hv.1 hs e he)
  intro e he
  obtain ⟨X, Y, rfl⟩ := List.append_of_mem (hmem e he)
  rw [isList, elts_append, elts, elt] at h3
  exact ⟨cell_of h3 (by cancel), cell_of h3 (by cancel)⟩

/-- The removing operations only drop elements: the survivors are the same elements at the same addresses, in the same order. -/
theorem C12_survivors {nf : Prop} {op : Op V} {ρ : Loc → V} {ys : List (Elem V)}
    (hop : op = .popBack ∨ op = .popFront ∨ (∃ i, op = .erase i) ∨ (∃ i j, i ≤ j ∧ op = .eraseRange i j) ∨ op = .clear ∨
      (∃ a, op = .remove a) ∨ (∃ p, op = .removeIf p) ∨ (∃ p, op = .uniqueIf p))
    (h : Step E ty ρ nf op xs ys) : ys.Sublist xs := by
  rcases hop with rfl | rfl | ⟨i, rfl⟩ | ⟨i, j, hij, rfl⟩ | rfl | ⟨a, rfl⟩ | ⟨p, rfl⟩ | ⟨p, rfl⟩ <;> simp only [Step] at h <;> rw [h]
  · exact List.dropLast_sublist _
  · exact List.tail_sublist _
  · exact List.eraseIdx_sublist _ _
  · have : xs = xs.take i ++ xs.drop i := by simp
    conv => rhs; rw [this]
    refine (List.Sublist.refl _).append ?_
    rw [show xs.drop j = (xs.drop i).drop (j - i) by rw [List.drop_drop]; congr 1; omega]
    exact List.drop_sublist _ _
  · exact List.nil_sublist _
  · exact List.filter_sublist
  · exact List.filter_sublist
  · exact uniqBy_sublist _ _

end CC.CList
