import Verif.Info.OwnSList
import Verif.Props.COwnList
/-!
# Property C98: forward lists of elements with callbacks and storage of their own

As C97 (Verif/Props/COwnList.lean) for forward lists: the element type is given by its descriptor in memory (`info t i`) and the client's functions `C`, arbitrary programs that create, copy and
destroy objects (`ElemSpec`) and an allocator with data `A` of its own (`Storage`, Verif/Info/OwnSpec.lean).  `isL e Own l a s t xs` (Verif/Info/OwnSList.lean) says that a heap fragment is exactly a
forward list with elements `xs`, including the storage (`Own`) and the resources of every element; `a` is its before-begin node, `s` its end node.
-/
namespace CC.Info.S
open CC.Tac
open CC.CList (Elem nodes vals firstN lastN lastN_nil lastN_cons lastN_append_cons)
open CC.SList (beforeBegin iterAdvance)
variable {V W α β : Type} {nf : Prop} {C : Funs V} {i : Table} {t : Addr} {A : HProp V} {Own : Addr → HProp V} {e : ElemSpec nf (ops C i) W} {l a s : Addr} {xs : List (Elem W)} {R : HProp V}

/-- what a client may ask of a list; positions are numbers of steps from `c_slist_before_begin`, `b` is the location of an argument object -/
inductive Op where
  | pushFront (b : Loc)
  | popFront
  | insertAfter (k : Nat) (b : Loc)
  | eraseAfter (k : Nat)
  | eraseRange (k n : Nat)
  | clear
  | resize (n : Nat)
  | resizeWith (n : Nat) (b : Loc)

/-- the client's call -/
def runOp (C : Funs V) (l : Addr) : Op → M V Unit
  | .pushFront b => pushFront C l b
  | .popFront => popFront C l
  | .insertAfter k b => do
    let p ← (do let b ← beforeBegin l; iterAdvance b k)
    let _ ← insertAfter C l p b
    pure ()
  | .eraseAfter k => do
    let p ← (do let b ← beforeBegin l; iterAdvance b k)
    let _ ← eraseAfter C l p
    pure ()
  | .eraseRange k n => do
    let p ← (do let b ← beforeBegin l; iterAdvance b k)
    let q ← (do let b ← beforeBegin l; iterAdvance b (k + n + 1))
    let _ ← eraseAfterRange C l p q
    pure ()
  | .clear => clear C l
  | .resize n => resizeWithValue C l n (0, 1)
  | .resizeWith n b => resizeWithValue C l n b

def runOps (C : Funs V) (l : Addr) : List Op → M V Unit
  | [] => pure ()
  | op :: ops => do
    runOp C l op
    runOps C l ops

/-- What an operation does to the values: `ρ b` is the value of the object at `b`, `d` the default value; `nf` says that storage never runs out.  An insertion that finds no storage changes nothing;
a growing resize stops there.  Erasing behind the last element changes nothing; erasing a range removes the elements strictly between its ends. -/
def Step (nf : Prop) (ρ : Loc → W) (d : W) : Op → List W → List W → Prop
  | .pushFront b, ws, ws' => ws' = ρ b :: ws ∨ (¬ nf ∧ ws' = ws)
  | .popFront, ws, ws' => ws' = ws.tail
  | .insertAfter k b, ws, ws' => ws' = ws.take k ++ ρ b :: ws.drop k ∨ (¬ nf ∧ ws' = ws)
  | .eraseAfter k, ws, ws' => ws' = ws.take k ++ ws.drop (k + 1)
  | .eraseRange k n, ws, ws' => ws' = ws.take k ++ ws.drop (k + n)
  | .clear, _, ws' => ws' = []
  | .resize n, ws, ws' => ∃ j, ws' = ws.take n ++ List.replicate j d ∧ j ≤ n - ws.length ∧ (nf → j = n - ws.length)
  | .resizeWith n b, ws, ws' => ∃ j, ws' = ws.take n ++ List.replicate j (ρ b) ∧ j ≤ n - ws.length ∧ (nf → j = n - ws.length)

/-- a history of steps -/
inductive Steps (nf : Prop) (ρ : Loc → W) (d : W) : List Op → List W → List W → Prop where
  | nil {ws} : Steps nf ρ d [] ws ws
  | cons {op ops ws ws' ws''} : Step nf ρ d op ws ws' → Steps nf ρ d ops ws' ws'' → Steps nf ρ d (op :: ops) ws ws''

/-- The argument locations of an operation hold objects of the environment `R`, and positions lie in the list of length `n` (the end of a range may be the end of the list). -/
def Fine (e : ElemSpec nf (ops C i) W) (R : HProp V) (ρ : Loc → W) (n : Nat) : Op → Prop
  | .pushFront b => Holds e R b (ρ b)
  | .insertAfter k b => k ≤ n ∧ Holds e R b (ρ b)
  | .eraseAfter k => k ≤ n
  | .eraseRange k m => k + m ≤ n
  | .resizeWith _ b => Holds e R b (ρ b)
  | _ => True

/-- … at every moment of the history, however it goes -/
def FineAll (e : ElemSpec nf (ops C i) W) (R : HProp V) (ρ : Loc → W) : List Op → List W → Prop
  | [], _ => True
  | op :: ops, ws => Fine e R ρ ws.length op ∧ ∀ ws', Step nf ρ e.dflt op ws ws' → FineAll e R ρ ops ws'

theorem cut (k : Nat) (h : k ≤ xs.length) : ∃ X Y, xs = X ++ Y ∧ X.length = k := ⟨xs.take k, xs.drop k, (List.take_append_drop k xs).symm, by simp [h]⟩

/-- the place `k + 1` steps behind the before-begin node is the first of the elements behind the first `k` -/
theorem advance_first {P : HProp V} {X Y : List (Elem W)} {k : Nat} {Q : β → HProp V} {K : Addr → M V β} (hk : X.length = k) (h : Triple nf (isL e Own l a s t (X ++ Y) ∗ P) (K (firstN Y s)) Q) :
    Triple nf (isL e Own l a s t (X ++ Y) ∗ P) ((do let b ← beforeBegin l; iterAdvance b (k + 1)) >>= K) Q := by
  have e1 : ∀ (k b : Addr), iterAdvance (V := V) b (k + 1) = (iterAdvance b k >>= fun x => SList.nxt x) := by
    intro k
    induction k with
    | zero => intro b; simp only [iterAdvance, pure_bind]; exact bind_pure _
    | succ k ih =>
      intro b
      show (do let n ← SList.nxt b; iterAdvance n (k + 1) : M V Addr) = ((do let n ← SList.nxt b; iterAdvance n k) >>= fun x => SList.nxt x)
      simp only [ih, bind_assoc]
  simp only [e1]
  rw [show (do let b ← beforeBegin l; let x ← iterAdvance b k; SList.nxt x : M V Addr) = ((do let b ← beforeBegin l; iterAdvance b k) >>= fun x => SList.nxt x) by rw [bind_assoc], bind_assoc]
  refine advance_spec hk ?_
  exact ldN_reads nxt_rd h

theorem step_spec {ρ : Loc → W} {op : Op} (ha : Storage nf C i A Own) (hc : Calls i) (ht : t ≠ 0) (hf : Fine e R ρ xs.length op) :
    Triple nf (isL e Own l a s t xs ∗ A ∗ info t i ∗ R) (runOp C l op)
      (fun _ => ∃ₛ ys, ⌜Step nf ρ e.dflt op (vals xs) (vals ys)⌝ ∗ isL e Own l a s t ys ∗ A ∗ info t i ∗ R) := by
  cases op with
  | pushFront b =>
    refine Triple.post (pushFront_spec ha hc ht hf) fun _ => ?_
    xintro N ⟨h1, h2⟩
    apply ent_ex_right (N ++ xs)
    cancel
    rcases h2 with rfl | ⟨x, rfl, hx⟩
    · exact .inr ⟨fun h => h1 h rfl, by simp⟩
    · exact .inl (by simp [hx])
  | popFront =>
    refine Triple.post (popFront_spec ha hc ht) fun _ => ?_
    apply ent_ex_right xs.tail
    cancel
    simp [Step, List.map_tail]
  | insertAfter k b =>
    obtain ⟨X, Y, rfl, hX⟩ := cut k hf.1
    refine advance_spec hX ?_
    refine Triple.bind (insertAfter_spec ha hc ht hf.2) fun r => ?_
    apply Triple.ret
    xintro N ⟨h1, h2, _⟩
    apply ent_ex_right (X ++ N ++ Y)
    cancel
    rcases h2 with rfl | ⟨x, rfl, hx⟩
    · exact .inr ⟨fun h => h1 h rfl, by simp⟩
    · exact .inl (by simp [hx, ← hX])
  | eraseAfter k =>
    obtain ⟨X, Y, rfl, hX⟩ := cut k hf
    refine advance_spec hX ?_
    cases Y with
    | nil =>
      rw [List.append_nil]
      refine Triple.bind eraseAfter_end fun r => ?_
      refine Triple.pure_left fun _ => ?_
      apply Triple.ret
      apply ent_ex_right X
      cancel
      have h1 : (vals X).length = k := by simpa using hX
      rw [Step, List.take_of_length_le (by omega), List.drop_eq_nil_of_le (by omega), List.append_nil]
    | cons x Y =>
      refine Triple.bind (eraseAfter_spec ha hc ht) fun r => ?_
      refine Triple.pure_left fun _ => ?_
      apply Triple.ret
      apply ent_ex_right (X ++ Y)
      cancel
      simp [Step, ← hX, List.drop_append]
  | eraseRange k n =>
    obtain ⟨X, Y', rfl, hX⟩ := cut k (Nat.le_trans (Nat.le_add_right _ _) hf)
    obtain ⟨Y, Z, rfl, hY⟩ := cut (xs := Y') n (by have := hf; simp only [Fine, List.length_append, hX] at this; omega)
    refine advance_spec hX ?_
    rw [← List.append_assoc]
    refine advance_first (by simp [hX, hY]) ?_
    refine Triple.bind (eraseAfterRange_spec ha hc ht) fun r => ?_
    refine Triple.pure_left fun _ => ?_
    apply Triple.ret
    apply ent_ex_right (X ++ Z)
    cancel
    simp [Step, ← hX, ← hY, List.drop_append]
  | clear =>
    refine Triple.post (clear_spec ha hc ht) fun _ => ?_
    apply ent_ex_right []
    cancel
  | resize n =>
    refine Triple.post (resizeWithValue_spec ha hc ht (.inl ⟨rfl, rfl⟩)) fun _ => ?_
    xintro N ⟨⟨j, hj, hN⟩, h2⟩
    apply ent_ex_right (xs.take n ++ N)
    cancel
    refine ⟨j, by simp [hN, List.map_take], by simpa using hj, fun h => ?_⟩
    have := congrArg List.length hN
    simp only [List.length_map, List.length_replicate] at this
    simp [← this, h2 h]
  | resizeWith n b =>
    refine Triple.post (resizeWithValue_spec ha hc ht (.inr hf)) fun _ => ?_
    xintro N ⟨⟨j, hj, hN⟩, h2⟩
    apply ent_ex_right (xs.take n ++ N)
    cancel
    refine ⟨j, by simp [hN, List.map_take], by simpa using hj, fun h => ?_⟩
    have := congrArg List.length hN
    simp only [List.length_map, List.length_replicate] at this
    simp [← this, h2 h]

/-- Any sequence of calls with fitting arguments: the list holds what the calls say, with the storage and the resources of exactly these elements; the descriptor, the allocator's data and the
argument objects are as they should be. -/
theorem C98_history {ρ : Loc → W} {ops : List Op} (ha : Storage nf C i A Own) (hc : Calls i) (ht : t ≠ 0) (hf : FineAll e R ρ ops (vals xs)) :
    Triple nf (isL e Own l a s t xs ∗ A ∗ info t i ∗ R) (runOps C l ops)
      (fun _ => ∃ₛ ys, ⌜Steps nf ρ e.dflt ops (vals xs) (vals ys)⌝ ∗ isL e Own l a s t ys ∗ A ∗ info t i ∗ R) := by
  induction ops generalizing xs with
  | nil =>
    apply Triple.ret
    apply ent_ex_right xs
    cancel
    exact .nil
  | cons op ops ih =>
    unfold runOps
    have h1 : Fine e R ρ xs.length op := by have := hf.1; rwa [List.length_map] at this
    refine Triple.bind (step_spec ha hc ht h1) fun _ => ?_
    refine Triple.ex_left fun ys => Triple.pure_left fun hy => ?_
    refine Triple.post (ih (hf.2 _ hy)) fun _ => ?_
    xintro zs hz
    apply ent_ex_right zs
    cancel
    exact .cons hy hz

/-- Copying a list: the copy is a list of the same type, with elements, storage and resources of its own, and the original is untouched.  If storage runs out, NULL is returned or elements are missing
at the end of the copy or within it; what there is is as it should be. -/
theorem C98_copy {o a2 s2 : Addr} {ys : List (Elem W)} (ha : Storage nf C i A Own) (hi : Complete i) (ht : t ≠ 0) :
    Triple nf (isL e Own o a2 s2 t ys ∗ A ∗ info t i ∗ R) (copy C o)
      (fun r => isL e Own o a2 s2 t ys ∗ A ∗ info t i ∗ R ∗ ∃ₛ N, ⌜(r = 0 → ¬ nf) ∧ (vals N).Sublist (vals ys) ∧ (nf → vals N = vals ys)⌝ ∗
        if r = 0 then ⌜N = []⌝ else hex fun p : Addr × Addr => isL e Own r p.1 p.2 t N) := copy_spec ha hi ht

/-- Assigning a list to another one of the same type: the elements of the destination are destroyed and their storage given back, and it gets copies of its own of the source's elements. -/
theorem C98_assign {o a2 s2 : Addr} {ys : List (Elem W)} (ha : Storage nf C i A Own) (hc : Calls i) (ht : t ≠ 0) :
    Triple nf (isL e Own l a s t xs ∗ isL e Own o a2 s2 t ys ∗ A ∗ info t i ∗ R) (assign C l o)
      (fun r => ∃ₛ N, ⌜r = l ∧ (vals N).Sublist (vals ys) ∧ (nf → vals N = vals ys)⌝ ∗ isL e Own l a s t N ∗ isL e Own o a2 s2 t ys ∗ A ∗ info t i ∗ R) := assign_spec ha hc ht

/-- Assigning a list to one of another type: its elements are destroyed with their own type's `destroy` and their storage goes back to their own type's allocator; the new ones are created and stored
as elements of the source's type, which the destination has from now on. -/
theorem C98_assign_other {o a2 s2 : Addr} {ys : List (Elem W)} {i₁ : Table} {t₁ : Addr} {A₁ : HProp V} {Own₁ : Addr → HProp V} {W₁ : Type} {e₁ : ElemSpec nf (ops C i₁) W₁} {zs : List (Elem W₁)}
    (ha₁ : Storage nf C i₁ A₁ Own₁) (hc₁ : Calls i₁) (ht₁ : t₁ ≠ 0) (ha : Storage nf C i A Own) (hc : Calls i) (ht : t ≠ 0) :
    Triple nf (isL e₁ Own₁ l a s t₁ zs ∗ A₁ ∗ info t₁ i₁ ∗ isL e Own o a2 s2 t ys ∗ A ∗ info t i ∗ R) (assign C l o)
      (fun r => ∃ₛ N, ⌜r = l ∧ (vals N).Sublist (vals ys) ∧ (nf → vals N = vals ys)⌝ ∗ isL e Own l a s t N ∗ A₁ ∗ info t₁ i₁ ∗ isL e Own o a2 s2 t ys ∗ A ∗ info t i ∗ R) :=
  assign_other ha₁ hc₁ ht₁ ha hc ht

/-- A whole life: create a list of the type, do anything, copy it, destroy it, do anything with the copy, destroy that.  (`c_slist_create` and `c_slist_copy` return NULL if storage runs out.) -/
def life (C : Funs V) (t : Addr) (ops ops' : List Op) : M V Unit := do
  let l ← slistCreate t
  if l = 0 then pure () else do
  runOps C l ops
  let r ← copy C l
  destroy C l
  if r = 0 then pure () else do
  runOps C r ops'
  destroy C r

/-- At the end of the lives of a list and its copy everything is as before: every element has been destroyed with the type's own `destroy` and its storage given back the way it came, and the
argument objects, the descriptor and the allocator's data are intact. -/
theorem C98_life {ρ : Loc → W} {ops ops' : List Op} {m : Mem V} {F : HProp V} (ha : Storage nf C i A Own) (hi : Complete i) (ht : t ≠ 0) (hf : FineAll e R ρ ops [])
    (hf' : ∀ ws ws', Steps nf ρ e.dflt ops [] ws → ws'.Sublist ws → (nf → ws' = ws) → FineAll e R ρ ops' ws')
    (ho : nf → ∀ n, m.orc n ≠ 0) (hm : ((A ∗ info t i ∗ R) ∗ F) m.cells) :
    ∃ m', life C t ops ops' m = some (.ok ((), m')) ∧ ((A ∗ info t i ∗ R) ∗ F) m'.cells := by
  have hc : Calls i := ⟨hi.2.1, hi.2.2.1, hi.2.2.2.1⟩
  have h : Triple nf (A ∗ info t i ∗ R) (life C t ops ops') (fun _ => A ∗ info t i ∗ R) := by
    unfold life slistCreate
    rw [if_neg ht]
    simp only [bind_assoc]
    refine Triple.pre (P' := info t i ∗ A ∗ R) (by cancel) (validate_cps hi ?_)
    refine create_spec (e := e) (Own := Own) ht (fun h => ?_) fun l a s hl => ?_
    · rw [if_pos rfl]
      exact Triple.ret (by cancel)
    · rw [if_neg hl]
      refine Triple.bind (Triple.pre (by cancel) (C98_history (e := e) (l := l) (a := a) (s := s) (xs := []) ha hc ht hf)) fun _ => ?_
      refine Triple.ex_left fun ys => Triple.pure_left fun hy => ?_
      refine Triple.bind (C98_copy (e := e) (o := l) (a2 := a) (s2 := s) (ys := ys) ha hi ht) fun r => ?_
      refine Triple.pre (P' := ∃ₛ N, ⌜(r = 0 → ¬ nf) ∧ (vals N).Sublist (vals ys) ∧ (nf → vals N = vals ys)⌝ ∗
        (if r = 0 then ⌜N = []⌝ else hex fun p : Addr × Addr => isL e Own r p.1 p.2 t N) ∗ isL e Own l a s t ys ∗ A ∗ info t i ∗ R) ?_ ?_
      · xintro N hN
        apply ent_ex_right N
        cancel
      refine Triple.ex_left fun N => Triple.pure_left fun hN => ?_
      by_cases hr : r = 0
      · rw [if_pos hr]
        refine Triple.pure_left fun _ => ?_
        refine Triple.bind (destroy_spec ha hc ht) fun _ => ?_
        rw [if_pos hr]
        exact Triple.ret (by cancel)
      · rw [if_neg hr]
        refine Triple.ex_left' fun p => ?_
        refine Triple.bind (Triple.pre (by cancel) (destroy_spec (l := l) (a := a) (s := s) (xs := ys) (R := isL e Own r p.1 p.2 t N ∗ R) ha hc ht)) fun _ => ?_
        rw [if_neg hr]
        refine Triple.bind (Triple.pre (by cancel) (C98_history (e := e) (l := r) (a := p.1) (s := p.2) (xs := N) ha hc ht (hf' _ _ (by simpa using hy) hN.2.1 hN.2.2))) fun _ => ?_
        refine Triple.ex_left fun zs => Triple.pure_left fun _ => ?_
        exact destroy_spec ha hc ht
  obtain ⟨_, m', h1, _, h2⟩ := h.run ho hm
  exact ⟨m', h1, h2⟩

/-- If storage does not run out, the values after a history without resizing are determined: they are what the same calls make of an ordinary list. -/
theorem C98_values {ρ : Loc → W} {d : W} {b c : Loc} {ws : List W} (h : Steps True ρ d [.pushFront b, .insertAfter 1 c, .insertAfter 1 b, .eraseRange 0 1, .eraseAfter 1] [] ws) : ws = [ρ b] := by
  cases h with | cons h1 h => cases h with | cons h2 h => cases h with | cons h3 h => cases h with | cons h4 h => cases h with | cons h5 h =>
  cases h
  simp only [Step, not_true_eq_false, false_and, or_false] at h1 h2 h3 h4 h5
  subst h1 h2 h3 h4 h5
  rfl

/-- The example of C97 - elements that own a box, in storage marked by its allocator - with a forward list. -/
example (ty : Ty V) (v : V) : ∃ (m : Mem V) (t : Nat) (b : Loc) (R F : HProp V) (i : Table) (e : ElemSpec True (ops (L.marked ty) i) V),
    Storage True (L.marked ty) i emp (fun a => blk a 2 ∗ fld a 2 77) ∧ Complete i ∧ t ≠ 0 ∧
    (∀ n, m.orc n ≠ 0) ∧ FineAll e R (fun _ => v) [.pushFront b, .resize 5, .insertAfter 5 b, .eraseAfter 6, .eraseRange 1 3, .popFront] [] ∧
    (∀ ws, FineAll e R (fun _ => v) [.pushFront b, .resizeWith 9 b, .popFront] ws) ∧ ((emp ∗ info t i ∗ R) ∗ F) m.cells := by
  obtain ⟨m, t, l1, l2, R, ht, ho, hm⟩ := exists_info (V := V) ⟨1, 8, 2, 3, 4, 9, 5, 0, 0⟩ v v
  have hl : l1.1 ≠ 0 := by
    rw [sep_left_comm] at hm
    exact pts_ne_zero hm
  obtain ⟨_, m', _, ho', hm'⟩ := (show Triple True (pts l1 (.obj (some v))) (do
      let p ← mallocO 1
      construct (p, 1) v
      stN l1 p : M V Unit) (fun _ => cell (boxSpec ty) l1 v) from by
    refine mallocO1 (fun h => absurd trivial h) fun p hp => ?_
    steps
    apply Triple.ret
    unfold cell
    apply ent_ex_right (.num p)
    unfold boxSpec
    dsimp only
    xexists p
    cancel).run (s := m) (F := info t ⟨1, 8, 2, 3, 4, 9, 5, 0, 0⟩ ∗ pts l2 (.obj (some v)) ∗ R) (fun _ => ho) ((show _ ⊢ₛ _ by cancel) _ hm)
  have hh : ∀ P : HProp V, Holds (C := L.marked ty) (i := ⟨1, 8, 2, 3, 4, 9, 5, 0, 0⟩) (boxSpec ty) (cell (boxSpec ty) l1 v ∗ P) l1 v := fun P => ⟨hl, P, rfl⟩
  refine ⟨m', t, l1, cell (boxSpec ty) l1 v ∗ emp, pts l2 (.obj (some v)) ∗ R, ⟨1, 8, 2, 3, 4, 9, 5, 0, 0⟩, boxSpec ty, L.marked_storage ty _ (by decide) (by decide), by simp [Complete], ht,
    by rw [ho']; exact ho, ?_, fun _ => ⟨hh _, fun _ _ => ⟨hh _, fun _ _ => ⟨trivial, fun _ _ => trivial⟩⟩⟩, (show _ ⊢ₛ _ by cancel) _ hm'⟩
  refine ⟨hh _, fun w1 h1 => ⟨trivial, fun w2 h2 => ?_⟩⟩
  simp only [Step, not_true_eq_false, false_and, or_false] at h1
  subst h1
  obtain ⟨j, rfl, _, h⟩ := h2
  have h := h trivial
  simp only [List.length_cons, List.length_nil] at h
  subst h
  refine ⟨⟨by simp, hh _⟩, fun w3 h3 => ?_⟩
  simp only [Step, not_true_eq_false, false_and, or_false] at h3
  subst h3
  refine ⟨by simp [Fine], fun w4 h4 => ?_⟩
  simp only [Step] at h4
  subst h4
  exact ⟨by simp [Fine], fun _ _ => ⟨trivial, fun _ _ => trivial⟩⟩

end CC.Info.S
