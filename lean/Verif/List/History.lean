import Verif.List.Sort
import Verif.Core.Err
/-!
# Histories of list operations

Client programs that apply any sequence of public list operations, and what each operation means on the
sequence of elements.
-/
namespace CC.CList
open CC.Tac
variable {V : Type}

/-- A public operation.  Positions are given as an index (the client reaches the position with
`c_list_begin` and `iter_advance`); `a : Loc` is a `c_ref_t` argument living outside the list;
`alias j` arguments are references to the list's own element number `j`. -/
inductive Op (V : Type) where
  | pushBack (a : Loc)
  | pushFront (a : Loc)
  | insert (i : Nat) (a : Loc)
  | pushBackAlias (j : Nat)
  | insertAlias (i j : Nat)
  | popBack
  | popFront
  | erase (i : Nat)
  | eraseRange (i j : Nat)
  | clear
  | resize (n : Nat)
  | resizeWithValue (n : Nat) (a : Loc)
  | reverse
  | remove (a : Loc)
  | removeIf (p : V → Bool)
  | uniqueIf (p : V → V → Bool)
  | sortBy (lt : V → V → Bool)
  | spliceRange (i j k : Nat)   -- move `[i, j)` of the list to position `k` of the same list, `k` outside `[i, j)`

/-- the iterator at index `i` -/
def iterAt (l : Addr) (i : Nat) : M V Addr := do
  let b ← begin_ l
  iterAdvance b i

variable (E : Types V)

/-- the client program for one operation -/
def runOp (l : Addr) : Op V → M V Unit
  | .pushBack a => pushBack E l a
  | .pushFront a => pushFront E l a
  | .insert i a => do
    let p ← iterAt l i
    let _ ← insert E l p a
    pure ()
  | .pushBackAlias j => do
    let q ← iterAt l j
    let r ← iterDereference q
    pushBack E l r
  | .insertAlias i j => do
    let p ← iterAt l i
    let q ← iterAt l j
    let r ← iterDereference q
    let _ ← insert E l p r
    pure ()
  | .popBack => popBack l
  | .popFront => popFront l
  | .erase i => do
    let p ← iterAt l i
    let _ ← erase l p
    pure ()
  | .eraseRange i j => do
    let p ← iterAt l i
    let q ← iterAt l j
    let _ ← eraseRange l p q
    pure ()
  | .clear => clear l
  | .resize n => resize E l n
  | .resizeWithValue n a => resizeWithValue E l n a
  | .reverse => reverse l
  | .remove a => remove E l a
  | .removeIf p => removeIf l p
  | .uniqueIf p => uniqueIf l (some p)
  | .sortBy lt => sortBy l (some lt)
  | .spliceRange i j k => do
    let p ← iterAt l k
    let f ← iterAt l i
    let t ← iterAt l j
    spliceRange l p l f t

def runOps (l : Addr) : List (Op V) → M V Unit
  | [] => pure ()
  | op :: ops => do
    runOp E l op
    runOps l ops

/-- A possibly failing insertion of one element with value `v` between `X` and `Y`. -/
def Inserted (nf : Prop) (X Y : List (Elem V)) (v : V) (ys : List (Elem V)) : Prop :=
  (∃ e, e.val = v ∧ ys = X ++ e :: Y) ∨ (¬ nf ∧ ys = X ++ Y)

/-- What an operation may do to the sequence of elements.  `ρ a` is the value at the argument location `a`;
`nf` says that the allocator never fails. Elements carry their addresses. -/
def Step (ty : Nat) (ρ : Loc → V) (nf : Prop) : Op V → List (Elem V) → List (Elem V) → Prop
  | .pushBack a, xs, ys => Inserted nf xs [] (ρ a) ys
  | .pushFront a, xs, ys => Inserted nf [] xs (ρ a) ys
  | .insert i a, xs, ys => Inserted nf (xs.take i) (xs.drop i) (ρ a) ys
  | .pushBackAlias j, xs, ys => ∃ e, xs[j]? = some e ∧ Inserted nf xs [] e.val ys
  | .insertAlias i j, xs, ys => ∃ e, xs[j]? = some e ∧ Inserted nf (xs.take i) (xs.drop i) e.val ys
  | .popBack, xs, ys => ys = xs.dropLast
  | .popFront, xs, ys => ys = xs.tail
  | .erase i, xs, ys => ys = xs.eraseIdx i
  | .eraseRange i j, xs, ys => ys = xs.take i ++ xs.drop j
  | .clear, _, ys => ys = []
  | .resize n, xs, ys => ∃ N : List (Elem V), ys = xs.take n ++ N ∧ (∃ k, k ≤ n - xs.length ∧ vals N = List.replicate k (E ty).dflt) ∧
      (nf → N.length = n - xs.length)
  | .resizeWithValue n a, xs, ys => ∃ N : List (Elem V), ys = xs.take n ++ N ∧ (∃ k, k ≤ n - xs.length ∧ vals N = List.replicate k (ρ a)) ∧
      (nf → N.length = n - xs.length)
  | .reverse, xs, ys => ys = xs.reverse
  | .remove a, xs, ys => ys = xs.filter fun e => !(E ty).equal e.val (ρ a)
  | .removeIf p, xs, ys => ys = xs.filter fun e => !p e.val
  | .uniqueIf p, xs, ys => ys = uniqBy (fun a b => p a.val b.val) xs
  | .sortBy lt, xs, ys => ys.Perm xs ∧
      ((StrictWeak lt → Sorted (fun a b => lt a.val b.val) ys ∧ StableOf (fun a b => lt a.val b.val) xs ys) ∨ (¬ nf ∧ ys = xs))
  | .spliceRange i j k, xs, ys =>
      if k < i then ys = xs.take k ++ (xs.drop i).take (j - i) ++ (xs.drop k).take (i - k) ++ xs.drop j
      else ys = xs.take i ++ (xs.drop j).take (k - j) ++ (xs.drop i).take (j - i) ++ xs.drop k

/-- The positions of the operation are valid for a list of length `n` and its value arguments are live objects. -/
def Valid (R : HProp V) (ρ : Loc → V) (n : Nat) : Op V → Prop
  | .pushBack a => a.1 ≠ 0 ∧ Reads R a (ρ a)
  | .pushFront a => a.1 ≠ 0 ∧ Reads R a (ρ a)
  | .insert i a => i ≤ n ∧ a.1 ≠ 0 ∧ Reads R a (ρ a)
  | .pushBackAlias j => j < n
  | .insertAlias i j => i ≤ n ∧ j < n
  | .erase i => i ≤ n
  | .eraseRange i j => i ≤ j ∧ j ≤ n
  | .resizeWithValue _ a => a.1 ≠ 0 ∧ Reads R a (ρ a)
  | .remove a => a.1 ≠ 0 ∧ Reads R a (ρ a)
  | .sortBy _ => n < 2 ^ 64
  | .spliceRange i j k => i ≤ j ∧ j ≤ n ∧ k ≤ n ∧ (k < i ∨ j ≤ k)
  | _ => True

variable {E}
variable {nf : Prop} {l s : Addr} {ty : Nat} {xs : List (Elem V)} {R : HProp V} {ρ : Loc → V}

theorem iterAt_spec {i : Nat} (hi : i ≤ xs.length) :
    Triple nf (isList l s ty xs) (iterAt l i) (fun r => ⌜r = firstN (xs.drop i) s⌝ ∗ isList l s ty xs) := by
  unfold iterAt
  call begin_spec
  intro r
  xsub
  have := advanceFwd_spec (nf := nf) (l := l) (s := s) (ty := ty) (X := []) (Y := xs.take i) (Z := xs.drop i)
  rw [List.nil_append, List.take_append_drop, ← firstN_append, List.take_append_drop, List.length_take, Nat.min_eq_left hi] at this
  exact this

theorem inserted_of {X Y N : List (Elem V)} {v : V} (h1 : nf → N ≠ []) (h2 : N = [] ∨ ∃ e, N = [e] ∧ e.val = v) :
    Inserted nf X Y v (X ++ N ++ Y) := by
  rcases h2 with rfl | ⟨e, rfl, he⟩
  · exact Or.inr ⟨fun h => h1 h rfl, by simp⟩
  · exact Or.inl ⟨e, he, by simp⟩

theorem elt_box_ne {X Y : List (Elem V)} {e : Elem V} {h : Heap V} {R : HProp V}
    (hh : (isList l s ty (X ++ e :: Y) ∗ R) h) : e.box ≠ 0 := by
  rw [isList, elts_append, elts, elt] at hh
  have : (blk e.box 1 ∗ hdr l s ty ∗ path s (nodes (X ++ e :: Y) ++ [s]) ∗ elts X ∗ (fld e.node 3 e.box ∗ blk e.node 3 ∗
    pts (e.box, 1) (.obj (some e.val))) ∗ elts Y ∗ R) h := by
    refine (show _ ⊢ₛ _ from ?_) _ hh
    cancel
  exact pts_ne_zero this

theorem reads_in {X Y : List (Elem V)} {e : Elem V} :
    Reads (isList l s ty (X ++ e :: Y)) (e.box, 1) e.val := by
  unfold isList
  exact (elts_reads (List.mem_append_right _ List.mem_cons_self)).right.right

theorem runOp_spec {op : Op V} (hty : ty ≠ 0) (hv : Valid R ρ xs.length op) :
    Triple nf (isList l s ty xs ∗ R) (runOp E l op)
      (fun _ => ∃ₛ s' ys, ⌜Step E ty ρ nf op xs ys⌝ ∗ isList l s' ty ys ∗ R) := by
  cases op with
  | pushBack a =>
    refine Triple.post (pushBack_spec hv.1 hv.2.right) ?_
    intro _
    xintro N ⟨h1, h2⟩
    xexists s, xs ++ N
    cancel
    have := inserted_of (X := xs) (Y := []) h1 h2
    simpa [Step] using this
  | pushFront a =>
    refine Triple.post (pushFront_spec hv.1 hv.2.right) ?_
    intro _
    xintro N ⟨h1, h2⟩
    xexists s, N ++ xs
    cancel
    have := inserted_of (X := []) (Y := xs) h1 h2
    simpa [Step] using this
  | insert i a =>
    unfold runOp
    dsimp only
    call (iterAt_spec (l := l) hv.1)
    intro r
    xsub
    have hi := insert_spec (E := E) (nf := nf) (l := l) (s := s) (ty := ty) (X := xs.take i) (Y := xs.drop i) (R := R) hv.2.1 (v := ρ a) hv.2.2.right
    simp only [List.take_append_drop] at hi
    call hi
    intro r
    xintro N ⟨h1, h2, _⟩
    apply Triple.ret
    xexists s, xs.take i ++ N ++ xs.drop i
    cancel
    exact inserted_of h1 h2
  | pushBackAlias j =>
    unfold runOp iterDereference
    dsimp only
    have hj : j < xs.length := hv
    call (iterAt_spec (l := l) (Nat.le_of_lt hj))
    intro r
    xsub
    obtain ⟨X, e, Y, rfl, rfl⟩ : ∃ X e Y, xs = X ++ e :: Y ∧ X.length = j :=
      ⟨xs.take j, xs[j], xs.drop (j+1), by simp, by simp; omega⟩
    rw [List.drop_left, firstN_cons]
    call (valOf_in (l := l))
    intro r
    xsub
    apply Triple.fact (p := e.box ≠ 0) (fun _ h => elt_box_ne h)
    intro hb
    refine Triple.post (pushBack_spec (v := e.val) hb reads_in.left) ?_
    intro _
    xintro N ⟨h1, h2⟩
    xexists s, (X ++ e :: Y) ++ N
    cancel
    refine ⟨e, by simp, ?_⟩
    have := inserted_of (X := X ++ e :: Y) (Y := []) h1 h2
    simpa using this
  | insertAlias i j =>
    unfold runOp iterDereference
    dsimp only
    have hj : j < xs.length := hv.2
    call (iterAt_spec (l := l) hv.1)
    intro r
    xsub
    call (iterAt_spec (l := l) (Nat.le_of_lt hj))
    intro r
    xsub
    have hxs : xs.take j ++ xs[j] :: xs.drop (j+1) = xs := by simp
    have hget : xs[j]? = some xs[j] := by simp
    generalize xs[j] = e at hxs hget
    have hf : firstN (xs.drop j) s = e.node := by
      rw [← hxs, List.drop_append]
      simp [Nat.min_eq_left (Nat.le_of_lt hj)]
    rw [hf]
    have hvo := valOf_in (nf := nf) (l := l) (s := s) (ty := ty) (X := xs.take j) (e := e) (Y := xs.drop (j+1))
    rw [hxs] at hvo
    call hvo
    intro r
    xsub
    apply Triple.fact (p := e.box ≠ 0)
    · intro h hh
      have := elt_box_ne (l := l) (s := s) (ty := ty) (X := xs.take j) (e := e) (Y := xs.drop (j+1)) (R := R) (h := h)
      rw [hxs] at this
      exact this hh
    intro hb
    have hr := reads_in (l := l) (s := s) (ty := ty) (X := xs.take j) (e := e) (Y := xs.drop (j+1))
    rw [hxs] at hr
    have hi := insert_spec (E := E) (nf := nf) (l := l) (s := s) (ty := ty) (X := xs.take i) (Y := xs.drop i) (R := R) (value := (e.box, 1)) hb (v := e.val)
      (by rw [List.take_append_drop]; exact hr.left)
    simp only [List.take_append_drop] at hi
    call hi
    intro r
    xintro N ⟨h1, h2, _⟩
    apply Triple.ret
    xexists s, xs.take i ++ N ++ xs.drop i
    cancel
    exact ⟨e, hget, inserted_of h1 h2⟩
  | popBack =>
    call (popBack_spec (l := l))
    intro _
    xexists s, xs.dropLast
    cancel
  | popFront =>
    call (popFront_spec (l := l))
    intro _
    xexists s, xs.tail
    cancel
  | erase i =>
    unfold runOp
    dsimp only
    call (iterAt_spec (l := l) hv)
    intro r
    xsub
    rcases Nat.lt_or_ge i xs.length with hi | hi
    · obtain ⟨X, e, Y, rfl, rfl⟩ : ∃ X e Y, xs = X ++ e :: Y ∧ X.length = i :=
        ⟨xs.take i, xs[i], xs.drop (i+1), by simp, by simp; omega⟩
      rw [List.drop_left, firstN_cons]
      call (erase_spec (l := l))
      intro r
      xsub
      apply Triple.ret
      xexists s, X ++ Y
      cancel
      show X ++ Y = (X ++ e :: Y).eraseIdx X.length
      simp [List.eraseIdx_append]
    · rw [List.drop_of_length_le hi, firstN_nil]
      call (erase_end (l := l))
      intro r
      xsub
      apply Triple.ret
      xexists s, xs
      cancel
      exact (List.eraseIdx_of_length_le hi).symm
  | eraseRange i j =>
    obtain ⟨h1, h2⟩ : i ≤ j ∧ j ≤ xs.length := hv
    unfold runOp
    dsimp only
    call (iterAt_spec (l := l) (Nat.le_trans h1 h2))
    intro r
    xsub
    call (iterAt_spec (l := l) h2)
    intro r
    xsub
    have hx : xs.take i ++ (xs.drop i).take (j - i) ++ xs.drop j = xs := by
      rw [List.append_assoc, show xs.drop j = (xs.drop i).drop (j - i) by rw [List.drop_drop]; congr 1; omega,
        List.take_append_drop, List.take_append_drop]
    have hy : (xs.drop i).take (j - i) ++ xs.drop j = xs.drop i := by
      rw [show xs.drop j = (xs.drop i).drop (j - i) by rw [List.drop_drop]; congr 1; omega,
        List.take_append_drop]
    have he := eraseRange_spec (nf := nf) (l := l) (s := s) (ty := ty) (X := xs.take i) (Y := (xs.drop i).take (j - i)) (Z := xs.drop j)
    rw [hx, ← firstN_append, hy] at he
    call he
    intro r
    xsub
    apply Triple.ret
    xexists s, xs.take i ++ xs.drop j
    cancel
  | clear =>
    call (clear_spec (l := l))
    intro _
    xexists s, []
    cancel
  | resize n =>
    refine Triple.post (resizeWithValue_spec (fun N => Or.inl ⟨rfl, rfl⟩)) ?_
    intro _
    xintro N ⟨h1, h2⟩
    xexists s, xs.take n ++ N
    cancel
    exact ⟨N, rfl, h1, h2⟩
  | resizeWithValue n a =>
    refine Triple.post (resizeWithValue_spec (v := ρ a) (fun N => Or.inr ⟨hv.1, hv.2.right⟩)) ?_
    intro _
    xintro N ⟨h1, h2⟩
    xexists s, xs.take n ++ N
    cancel
    exact ⟨N, rfl, h1, h2⟩
  | reverse =>
    call (reverse_spec (l := l))
    intro _
    xexists s, xs.reverse
    cancel
  | remove a =>
    refine Triple.post (remove_spec hv.1 hv.2) ?_
    intro _
    xexists s, _
    cancel
  | removeIf p =>
    call (removeIf_spec (l := l))
    intro _
    xexists s, _
    cancel
  | uniqueIf p =>
    call (uniqueIf_spec (l := l))
    intro _
    xexists s, _
    cancel
  | sortBy lt =>
    call (sortBy_spec (l := l) hty hv)
    intro _
    xintro s' ys ⟨⟨h1, h2⟩, h3⟩
    xexists s', ys
    cancel
    exact ⟨h1, h3.imp (fun h hw => ⟨h hw, h2 hw⟩) id⟩
  | spliceRange i j k =>
    obtain ⟨h1, h2, h3, h4⟩ : i ≤ j ∧ j ≤ xs.length ∧ k ≤ xs.length ∧ (k < i ∨ j ≤ k) := hv
    unfold runOp
    dsimp only
    call (iterAt_spec (l := l) h3)
    intro r
    xsub
    call (iterAt_spec (l := l) (Nat.le_trans h1 h2))
    intro r
    xsub
    call (iterAt_spec (l := l) h2)
    intro r
    xsub
    have hsame : isSame ty ty = true := by simp [isSame, hty]
    have cut : ∀ a b, a ≤ b → (xs.drop a).take (b - a) ++ xs.drop b = xs.drop a := by
      intro a b hab
      rw [show xs.drop b = (xs.drop a).drop (b - a) by rw [List.drop_drop]; congr 1; omega, List.take_append_drop]
    by_cases hk : k < i
    · have hne : (xs.drop k).take (i - k) ≠ [] := by
        intro h
        have := congrArg List.length h
        simp at this
        omega
      have hsp := spliceRange_earlier (nf := nf) (l := l) (s := s) (ty := ty) (X := xs.take k) (Y := (xs.drop k).take (i - k))
        (M := (xs.drop i).take (j - i)) (Z := xs.drop j) hne hsame
      rw [List.append_assoc (List.take k xs ++ _), cut i j h1, List.append_assoc, cut k i (by omega), List.take_append_drop,
        ← firstN_append, cut i j h1] at hsp
      have hfy : firstN ((xs.drop k).take (i - k)) s = firstN (xs.drop k) s := by
        obtain ⟨y, Y, hy⟩ := List.exists_cons_of_ne_nil hne
        have := cut k i (by omega)
        rw [hy] at this ⊢
        rw [← this]; rfl
      rw [hfy] at hsp
      call hsp
      intro _
      xexists s, _
      cancel
      simp only [Step, hk, if_true]
    · have hjk : j ≤ k := by omega
      have hsp := spliceRange_later (nf := nf) (l := l) (s := s) (ty := ty) (X := xs.take i) (M := (xs.drop i).take (j - i))
        (Y := (xs.drop j).take (k - j)) (Z := xs.drop k) hsame
      rw [List.append_assoc (List.take i xs ++ _), cut j k hjk, List.append_assoc, cut i j h1, List.take_append_drop,
        ← firstN_append (List.take (k - j) (List.drop j xs)), cut j k hjk, ← firstN_append, cut i j h1] at hsp
      call hsp
      intro _
      xexists s, _
      cancel
      simp only [Step, hk, if_false]

/-- all ways a history may change the sequence of elements -/
inductive Steps (E : Types V) (ty : Nat) (ρ : Loc → V) (nf : Prop) : List (Op V) → List (Elem V) → List (Elem V) → Prop
  | nil (zs : List (Elem V)) : Steps E ty ρ nf [] zs zs
  | cons {op : Op V} {ops : List (Op V)} {xs ys zs : List (Elem V)} : Step E ty ρ nf op xs ys → Steps E ty ρ nf ops ys zs → Steps E ty ρ nf (op :: ops) xs zs

/-- A history is valid if each operation is valid in every state the previous ones can lead to. -/
def ValidOps (E : Types V) (ty : Nat) (R : HProp V) (ρ : Loc → V) (nf : Prop) : List (Op V) → List (Elem V) → Prop
  | [], _ => True
  | op :: ops, xs => Valid R ρ xs.length op ∧ ∀ ys, Step E ty ρ nf op xs ys → ValidOps E ty R ρ nf ops ys

theorem runOps_spec {ops : List (Op V)} (hty : ty ≠ 0) (hv : ValidOps E ty R ρ nf ops xs) :
    Triple nf (isList l s ty xs ∗ R) (runOps E l ops)
      (fun _ => ∃ₛ s' ys, ⌜Steps E ty ρ nf ops xs ys⌝ ∗ isList l s' ty ys ∗ R) := by
  induction ops generalizing xs s with
  | nil =>
    rw [runOps]
    apply Triple.ret
    xexists s, xs
    cancel
    exact Steps.nil _
  | cons op ops ih =>
    rw [runOps]
    refine Triple.bind (runOp_spec hty hv.1) ?_
    intro _
    xintro s' ys h
    refine Triple.post (ih (hv.2 ys h)) ?_
    intro _
    xintro s'' zs h'
    xexists s'', zs
    cancel
    exact Steps.cons h h'

end CC.CList
