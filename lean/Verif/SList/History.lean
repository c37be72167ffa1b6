import Verif.SList.Sort
import Verif.List.History
/-!
# Histories of forward-list operations

Client programs that apply any sequence of public forward-list operations, and what each operation means on the
sequence of elements.
-/
namespace CC.SList
open CC.Tac
open CC.CList (Elem nodes vals firstN lastN firstN_nil firstN_cons lastN_nil lastN_cons lastN_append_cons firstN_append
  blk_ne ArgVal ltE vals_mergeL Rearr Inserted inserted_of)
variable {V : Type}

/-- A public operation.  A position `i` is the iterator reached from `c_slist_before_begin` with `iter_advance` by `i`: it designates
the place behind the first `i` elements.  `a : Loc` is a `c_ref_t` argument living outside the list; `alias j` arguments are references to the
list's own element number `j`. -/
inductive Op (V : Type) where
  | pushFront (a : Loc)
  | insertAfter (i : Nat) (a : Loc)
  | insertAfterAlias (i j : Nat)
  | popFront
  | eraseAfter (i : Nat)
  | eraseAfterRange (i j : Nat)    -- erases the elements behind position `i` up to (excluding) element number `j`
  | clear
  | resize (n : Nat)
  | resizeWithValue (n : Nat) (a : Loc)
  | reverse
  | remove (a : Loc)
  | removeIf (p : V → Bool)
  | uniqueIf (p : V → V → Bool)
  | sortBy (lt : V → V → Bool)
  | spliceAfterRange (i j k : Nat)  -- move the elements number `i .. j-1` behind position `k` of the same list, `k ≤ i` or `j < k`

/-- the iterator behind the first `i` elements -/
def iterAt (l : Addr) (i : Nat) : M V Addr := do
  let b ← beforeBegin l
  iterAdvance b i

variable (E : Types V)

/-- the client program for one operation -/
def runOp (l : Addr) : Op V → M V Unit
  | .pushFront a => pushFront E l a
  | .insertAfter i a => do
    let p ← iterAt l i
    let _ ← insertAfter E l p a
    pure ()
  | .insertAfterAlias i j => do
    let p ← iterAt l i
    let q ← iterAt l (j+1)
    let r ← iterDereference q
    let _ ← insertAfter E l p r
    pure ()
  | .popFront => popFront l
  | .eraseAfter i => do
    let p ← iterAt l i
    let _ ← eraseAfter l p
    pure ()
  | .eraseAfterRange i j => do
    let p ← iterAt l i
    let q ← iterAt l (j+1)
    let _ ← eraseAfterRange l p q
    pure ()
  | .clear => clear l
  | .resize n => resize E l n
  | .resizeWithValue n a => resizeWithValue E l n a
  | .reverse => reverse l
  | .remove a => remove E l a
  | .removeIf p => removeIf l p
  | .uniqueIf p => uniqueIf l (some p)
  | .sortBy lt => sortBy l (some lt)
  | .spliceAfterRange i j k => do
    let p ← iterAt l k
    let f ← iterAt l i
    let t ← iterAt l (j+1)
    spliceAfterRange l p l f t

def runOps (l : Addr) : List (Op V) → M V Unit
  | [] => pure ()
  | op :: ops => do
    runOp E l op
    runOps l ops

/-- What an operation may do to the sequence of elements.  `ρ a` is the value at the argument location `a`;
`nf` says that the allocator never fails. Elements carry their addresses. -/
def Step (ty : Nat) (ρ : Loc → V) (nf : Prop) : Op V → List (Elem V) → List (Elem V) → Prop
  | .pushFront a, xs, ys => Inserted nf [] xs (ρ a) ys
  | .insertAfter i a, xs, ys => Inserted nf (xs.take i) (xs.drop i) (ρ a) ys
  | .insertAfterAlias i j, xs, ys => ∃ e, xs[j]? = some e ∧ Inserted nf (xs.take i) (xs.drop i) e.val ys
  | .popFront, xs, ys => ys = xs.tail
  | .eraseAfter i, xs, ys => ys = xs.eraseIdx i
  | .eraseAfterRange i j, xs, ys => ys = xs.take i ++ xs.drop j
  | .clear, _, ys => ys = []
  | .resize n, xs, ys => ∃ N : List (Elem V), ys = xs.take n ++ N ∧ (∃ k, k ≤ n - xs.length ∧ vals N = List.replicate k (E ty).dflt) ∧
      (nf → N.length = n - xs.length)
  | .resizeWithValue n a, xs, ys => ∃ N : List (Elem V), ys = xs.take n ++ N ∧ (∃ k, k ≤ n - xs.length ∧ vals N = List.replicate k (ρ a)) ∧
      (nf → N.length = n - xs.length)
  | .reverse, xs, ys => ys = xs.reverse
  | .remove a, xs, ys => ys = xs.filter fun e => !(E ty).equal e.val (ρ a)
  | .removeIf p, xs, ys => ys = xs.filter fun e => !p e.val
  | .uniqueIf p, xs, ys => ys = uniqBy (fun a b => p a.val b.val) xs
  | .sortBy lt, xs, ys => ys.Perm xs ∧
      ((StrictWeak lt → Sorted (fun a b => lt a.val b.val) ys ∧ StableOf (fun a b => lt a.val b.val) xs ys) ∨ (¬ nf ∧ ys = xs))
  | .spliceAfterRange i j k, xs, ys =>
      if k ≤ i then ys = xs.take k ++ (xs.drop i).take (j - i) ++ (xs.drop k).take (i - k) ++ xs.drop j
      else ys = xs.take i ++ (xs.drop j).take (k - j) ++ (xs.drop i).take (j - i) ++ xs.drop k

/-- The positions of the operation are valid for a list of length `n` and its value arguments are live objects. -/
def Valid (R : HProp V) (ρ : Loc → V) (n : Nat) : Op V → Prop
  | .pushFront a => a.1 ≠ 0 ∧ Reads R a (ρ a)
  | .insertAfter i a => i ≤ n ∧ a.1 ≠ 0 ∧ Reads R a (ρ a)
  | .insertAfterAlias i j => i ≤ n ∧ j < n
  | .eraseAfter i => i ≤ n
  | .eraseAfterRange i j => i ≤ j ∧ j ≤ n
  | .resizeWithValue _ a => a.1 ≠ 0 ∧ Reads R a (ρ a)
  | .remove a => a.1 ≠ 0 ∧ Reads R a (ρ a)
  | .sortBy _ => n < 2 ^ 64
  | .spliceAfterRange i j k => i ≤ j ∧ j ≤ n ∧ k ≤ n ∧ (k ≤ i ∨ j < k)
  | _ => True

variable {E}
variable {nf : Prop} {l a s : Addr} {ty : Nat} {xs : List (Elem V)} {R : HProp V} {ρ : Loc → V}

theorem iterAt_spec {i : Nat} (hi : i ≤ xs.length) :
    Triple nf (isSList l a s ty xs) (iterAt l i) (fun r => ⌜r = lastN (xs.take i) a⌝ ∗ isSList l a s ty xs) := by
  unfold iterAt
  call beforeBegin_spec
  intro r
  xsub
  have := iterAdvance_spec (nf := nf) (l := l) (a := a) (s := s) (ty := ty) (X := []) (Y := xs.take i) (Z := xs.drop i)
  rw [List.nil_append, List.take_append_drop, List.length_take, Nat.min_eq_left hi, lastN_nil] at this
  exact this

/-- the iterator at element number `i`, or end -/
theorem iterAt_succ_spec {i : Nat} (hi : i ≤ xs.length) :
    Triple nf (isSList l a s ty xs) (iterAt l (i+1)) (fun r => ⌜r = firstN (xs.drop i) s⌝ ∗ isSList l a s ty xs) := by
  unfold iterAt
  call beforeBegin_spec
  intro r
  xsub
  have hx : xs.take i ++ xs.drop i = xs := List.take_append_drop i xs
  have key : ∀ (X Y : List (Elem V)), Triple nf (isSList l a s ty (X ++ Y)) (iterAdvance a (X.length + 1))
      (fun r => ⌜r = firstN Y s⌝ ∗ isSList l a s ty (X ++ Y)) := by
    intro X Y
    have h2 : ∀ (n : Nat) (p : Addr), (iterAdvance p (n + 1) : M V Addr) = (do let q ← iterAdvance p n; nxt q) := by
      intro n
      induction n with
      | zero => intro p; simp [iterAdvance]
      | succ n ih =>
        intro p
        show (do let q ← nxt p; iterAdvance q (n+1)) = (do let q ← (do let q' ← nxt p; iterAdvance q' n); nxt q)
        simp only [ih, bind_assoc]
    rw [h2]
    have := iterAdvance_spec (nf := nf) (l := l) (a := a) (s := s) (ty := ty) (X := []) (Y := X) (Z := Y)
    rw [List.nil_append, lastN_nil] at this
    call this
    intro r
    xsub
    exact nxt_spec
  have := key (xs.take i) (xs.drop i)
  rw [hx, List.length_take, Nat.min_eq_left hi] at this
  exact this

theorem runOp_spec {op : Op V} (hty : ty ≠ 0) (hv : Valid R ρ xs.length op) :
    Triple nf (isSList l a s ty xs ∗ R) (runOp E l op)
      (fun _ => ∃ₛ a' s' ys, ⌜Step E ty ρ nf op xs ys⌝ ∗ isSList l a' s' ty ys ∗ R) := by
  have cut : ∀ a b, a ≤ b → (xs.drop a).take (b - a) ++ xs.drop b = xs.drop a := by
    intro a b hab
    rw [show xs.drop b = (xs.drop a).drop (b - a) by rw [List.drop_drop]; congr 1; omega, List.take_append_drop]
  cases op with
  | pushFront v =>
    refine Triple.post (pushFront_spec hv.1 hv.2.right) ?_
    intro _
    xintro N ⟨h1, h2⟩
    xexists a, s, N ++ xs
    cancel
    have := inserted_of (X := []) (Y := xs) h1 h2
    simpa [Step] using this
  | insertAfter i v =>
    unfold runOp
    dsimp only
    call (iterAt_spec (l := l) hv.1)
    intro r
    xsub
    have hi := insertAfter_spec (E := E) (nf := nf) (l := l) (a := a) (s := s) (ty := ty) (X := xs.take i) (Y := xs.drop i) (R := R) hv.2.1 (v := ρ v) hv.2.2.right
    simp only [List.take_append_drop] at hi
    call hi
    intro r
    xintro N ⟨h1, h2, _⟩
    apply Triple.ret
    xexists a, s, xs.take i ++ N ++ xs.drop i
    cancel
    exact inserted_of h1 h2
  | insertAfterAlias i j =>
    unfold runOp iterDereference
    dsimp only
    have hj : j < xs.length := hv.2
    call (iterAt_spec (l := l) hv.1)
    intro r
    xsub
    call (iterAt_succ_spec (l := l) (Nat.le_of_lt hj))
    intro r
    xsub
    have hxs : xs.take j ++ xs[j] :: xs.drop (j+1) = xs := by simp
    have hget : xs[j]? = some xs[j] := by simp
    have hmem : xs[j] ∈ xs := by simp
    generalize xs[j] = e at hxs hget hmem
    have hf : firstN (xs.drop j) s = e.node := by
      rw [← hxs, List.drop_append]
      simp [Nat.min_eq_left (Nat.le_of_lt hj)]
    rw [hf]
    have hvo := valOf_in (nf := nf) (l := l) (a := a) (s := s) (ty := ty) (X := xs.take j) (e := e) (Y := xs.drop (j+1))
    rw [hxs] at hvo
    call hvo
    intro r
    xsub
    apply Triple.fact (p := e.box ≠ 0)
    · intro h hh
      exact elt_box_ne hmem hh
    intro hb
    have hi := insertAfter_spec (E := E) (nf := nf) (l := l) (a := a) (s := s) (ty := ty) (X := xs.take i) (Y := xs.drop i) (R := R) (value := (e.box, 1)) hb (v := e.val)
      (by rw [List.take_append_drop]; exact (reads_in hmem).left)
    simp only [List.take_append_drop] at hi
    call hi
    intro r
    xintro N ⟨h1, h2, _⟩
    apply Triple.ret
    xexists a, s, xs.take i ++ N ++ xs.drop i
    cancel
    exact ⟨e, hget, inserted_of h1 h2⟩
  | popFront =>
    call (popFront_spec (l := l))
    intro _
    xexists a, s, xs.tail
    cancel
  | eraseAfter i =>
    unfold runOp
    dsimp only
    call (iterAt_spec (l := l) hv)
    intro r
    xsub
    rcases Nat.lt_or_ge i xs.length with hi | hi
    · obtain ⟨X, e, Y, rfl, rfl⟩ : ∃ X e Y, xs = X ++ e :: Y ∧ X.length = i :=
        ⟨xs.take i, xs[i], xs.drop (i+1), by simp, by simp; omega⟩
      rw [List.take_left]
      call (eraseAfter_spec (l := l))
      intro r
      xsub
      apply Triple.ret
      xexists a, s, X ++ Y
      cancel
      show X ++ Y = (X ++ e :: Y).eraseIdx X.length
      simp [List.eraseIdx_append]
    · rw [List.take_of_length_le hi]
      call (eraseAfter_end (l := l))
      intro r
      xsub
      apply Triple.ret
      xexists a, s, xs
      cancel
      exact (List.eraseIdx_of_length_le hi).symm
  | eraseAfterRange i j =>
    obtain ⟨h1, h2⟩ : i ≤ j ∧ j ≤ xs.length := hv
    unfold runOp
    dsimp only
    call (iterAt_spec (l := l) (Nat.le_trans h1 h2))
    intro r
    xsub
    call (iterAt_succ_spec (l := l) h2)
    intro r
    xsub
    have he := eraseAfterRange_spec (nf := nf) (l := l) (a := a) (s := s) (ty := ty) (X := xs.take i) (Y := (xs.drop i).take (j - i)) (Z := xs.drop j)
    rw [List.append_assoc, cut i j h1, List.take_append_drop] at he
    call he
    intro r
    xsub
    apply Triple.ret
    xexists a, s, xs.take i ++ xs.drop j
    cancel
  | clear =>
    call (clear_spec (l := l))
    intro _
    xexists a, s, []
    cancel
  | resize n =>
    refine Triple.post (resizeWithValue_spec (fun N => Or.inl ⟨rfl, rfl⟩)) ?_
    intro _
    xintro N ⟨h1, h2⟩
    xexists a, s, xs.take n ++ N
    cancel
    exact ⟨N, rfl, h1, h2⟩
  | resizeWithValue n v =>
    refine Triple.post (resizeWithValue_spec (v := ρ v) (fun N => Or.inr ⟨hv.1, hv.2.right⟩)) ?_
    intro _
    xintro N ⟨h1, h2⟩
    xexists a, s, xs.take n ++ N
    cancel
    exact ⟨N, rfl, h1, h2⟩
  | reverse =>
    call (reverse_spec (l := l))
    intro _
    xexists a, s, xs.reverse
    cancel
  | remove v =>
    refine Triple.post (remove_spec hv.1 hv.2) ?_
    intro _
    xexists a, s, _
    cancel
  | removeIf p =>
    call (removeIf_spec (l := l))
    intro _
    xexists a, s, _
    cancel
  | uniqueIf p =>
    call (uniqueIf_spec (l := l))
    intro _
    xexists a, s, _
    cancel
  | sortBy lt =>
    call (sortBy_spec (l := l) hty hv)
    intro _
    xintro a' s' ys ⟨⟨h1, h2⟩, h3⟩
    xexists a', s', ys
    cancel
    exact ⟨h1, h3.imp (fun h hw => ⟨h hw, h2 hw⟩) id⟩
  | spliceAfterRange i j k =>
    obtain ⟨h1, h2, h3, h4⟩ : i ≤ j ∧ j ≤ xs.length ∧ k ≤ xs.length ∧ (k ≤ i ∨ j < k) := hv
    unfold runOp
    dsimp only
    call (iterAt_spec (l := l) h3)
    intro r
    xsub
    call (iterAt_spec (l := l) (Nat.le_trans h1 h2))
    intro r
    xsub
    call (iterAt_succ_spec (l := l) h2)
    intro r
    xsub
    have hsame : isSame ty ty = true := by simp [isSame, hty]
    have cut' : ∀ a b, a ≤ b → xs.take a ++ (xs.drop a).take (b - a) = xs.take b := by
      intro a b hab
      have h1 : xs.take a ++ xs.drop a = xs.take b ++ xs.drop b := by simp
      rw [← cut a b hab, ← List.append_assoc] at h1
      exact List.append_cancel_right h1
    by_cases hk : k ≤ i
    · have hsp := spliceAfterRange_earlier (nf := nf) (l := l) (a := a) (s := s) (ty := ty) (X := xs.take k) (Y := (xs.drop k).take (i - k))
        (M := (xs.drop i).take (j - i)) (Z := xs.drop j) hsame
      rw [cut' k i hk, cut' i j h1, List.take_append_drop] at hsp
      call hsp
      intro _
      xexists a, s, _
      cancel
      simp only [Step, hk, if_true]
    · have hjk : j < k := by omega
      have hne : (xs.drop j).take (k - j) ≠ [] := by
        intro h
        have := congrArg List.length h
        simp at this
        omega
      have hsp := spliceAfterRange_later (nf := nf) (l := l) (a := a) (s := s) (ty := ty) (X := xs.take i) (M := (xs.drop i).take (j - i))
        (Y := (xs.drop j).take (k - j)) (Z := xs.drop k) hne hsame
      have hfy : firstN ((xs.drop j).take (k - j)) s = firstN (xs.drop j) s := by
        obtain ⟨y, Y, hy⟩ := List.exists_cons_of_ne_nil hne
        have := cut j k (by omega)
        rw [hy] at this ⊢
        rw [← this]; rfl
      rw [cut' i j h1, cut' j k (by omega), List.take_append_drop, hfy] at hsp
      call hsp
      intro _
      xexists a, s, _
      cancel
      simp only [Step, hk, if_false]

/-- all ways a history may change the sequence of elements -/
inductive Steps (E : Types V) (ty : Nat) (ρ : Loc → V) (nf : Prop) : List (Op V) → List (Elem V) → List (Elem V) → Prop
  | nil (zs : List (Elem V)) : Steps E ty ρ nf [] zs zs
  | cons {op : Op V} {ops : List (Op V)} {xs ys zs : List (Elem V)} : Step E ty ρ nf op xs ys → Steps E ty ρ nf ops ys zs → Steps E ty ρ nf (op :: ops) xs zs

/-- A history is valid if each operation is valid in every state the previous ones can lead to. -/
def ValidOps (E : Types V) (ty : Nat) (R : HProp V) (ρ : Loc → V) (nf : Prop) : List (Op V) → List (Elem V) → Prop
  | [], _ => True
  | op :: ops, xs => Valid R ρ xs.length op ∧ ∀ ys, Step E ty ρ nf op xs ys → ValidOps E ty R ρ nf ops ys

theorem runOps_spec {ops : List (Op V)} (hty : ty ≠ 0) (hv : ValidOps E ty R ρ nf ops xs) :
    Triple nf (isSList l a s ty xs ∗ R) (runOps E l ops)
      (fun _ => ∃ₛ a' s' ys, ⌜Steps E ty ρ nf ops xs ys⌝ ∗ isSList l a' s' ty ys ∗ R) := by
  induction ops generalizing xs a s with
  | nil =>
    rw [runOps]
    apply Triple.ret
    xexists a, s, xs
    cancel
    exact Steps.nil _
  | cons op ops ih =>
    rw [runOps]
    refine Triple.bind (runOp_spec hty hv.1) ?_
    intro _
    xintro a' s' ys h
    refine Triple.post (ih (hv.2 ys h)) ?_
    intro _
    xintro a'' s'' zs h'
    xexists a'', s'', zs
    cancel
    exact Steps.cons h h'

end CC.SList
