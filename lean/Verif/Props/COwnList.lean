import Verif.Info.OwnRemove
import Verif.Props.CInfo
/-!
# Property C97: lists of elements with callbacks and storage of their own

An element type is given by its descriptor in memory (`info t i`) and the client's functions `C`, which are arbitrary programs that create, copy and destroy objects owning whatever they own
(`ElemSpec`, Verif/Core/Elem.lean), and that get storage from and give it back to an allocator with data `A` of its own (`Storage`, Verif/Info/OwnSpec.lean).  `isList e Own l s t xs`
(Verif/Info/OwnList.lean) says that a heap fragment is exactly a list with elements `xs`, including the storage (`Own`) and the resources of every element.
-/
namespace CC.Info.L
open CC.Tac
open CC.CList (Elem begin_ advanceFwd nxt link path hdr)
variable {V W α β : Type} {nf : Prop} {C : Funs V} {i : Table} {t : Addr} {A : HProp V} {Own : Addr → HProp V} {e : ElemSpec nf (ops C i) W} {l s : Addr} {xs : List (Elem W)} {R : HProp V}

/-- what a client may ask of a list; positions are numbers of elements, `a` is the location of an argument object -/
inductive Op where
  | pushBack (a : Loc)
  | pushFront (a : Loc)
  | popBack
  | popFront
  | insert (k : Nat) (a : Loc)
  | erase (k : Nat)
  | eraseRange (k n : Nat)
  | clear
  | resize (n : Nat)
  | resizeWith (n : Nat) (a : Loc)

/-- the client's call: positions are reached by advancing `c_list_begin` -/
def runOp (C : Funs V) (l : Addr) : Op → M V Unit
  | .pushBack a => pushBack C l a
  | .pushFront a => pushFront C l a
  | .popBack => popBack C l
  | .popFront => popFront C l
  | .insert k a => do
    let b ← begin_ l
    let p ← advanceFwd b k
    let _ ← insert C l p a
    pure ()
  | .erase k => do
    let b ← begin_ l
    let p ← advanceFwd b k
    let _ ← erase C l p
    pure ()
  | .eraseRange k n => do
    let p ← (do let b ← begin_ l; advanceFwd b k)
    let q ← (do let b ← begin_ l; advanceFwd b (k + n))
    let _ ← eraseRange C l p q
    pure ()
  | .clear => clear C l
  | .resize n => resizeWithValue C l n (0, 1)
  | .resizeWith n a => resizeWithValue C l n a

def runOps (C : Funs V) (l : Addr) : List Op → M V Unit
  | [] => pure ()
  | op :: ops => do
    runOp C l op
    runOps C l ops

/-- What an operation does to the values: `ρ a` is the value of the object at `a`, `d` the default value; `nf` says that storage never runs out.  An insertion that finds no storage changes nothing;
a growing resize stops there. -/
def Step (nf : Prop) (ρ : Loc → W) (d : W) : Op → List W → List W → Prop
  | .pushBack a, ws, ws' => ws' = ws ++ [ρ a] ∨ (¬ nf ∧ ws' = ws)
  | .pushFront a, ws, ws' => ws' = ρ a :: ws ∨ (¬ nf ∧ ws' = ws)
  | .popBack, ws, ws' => ws' = ws.dropLast
  | .popFront, ws, ws' => ws' = ws.tail
  | .insert k a, ws, ws' => ws' = ws.take k ++ ρ a :: ws.drop k ∨ (¬ nf ∧ ws' = ws)
  | .erase k, ws, ws' => ws' = ws.take k ++ ws.drop (k + 1)
  | .eraseRange k n, ws, ws' => ws' = ws.take k ++ ws.drop (k + n)
  | .clear, _, ws' => ws' = []
  | .resize n, ws, ws' => ∃ j, ws' = ws.take n ++ List.replicate j d ∧ j ≤ n - ws.length ∧ (nf → j = n - ws.length)
  | .resizeWith n a, ws, ws' => ∃ j, ws' = ws.take n ++ List.replicate j (ρ a) ∧ j ≤ n - ws.length ∧ (nf → j = n - ws.length)

/-- a history of steps -/
inductive Steps (nf : Prop) (ρ : Loc → W) (d : W) : List Op → List W → List W → Prop where
  | nil {ws} : Steps nf ρ d [] ws ws
  | cons {op ops ws ws' ws''} : Step nf ρ d op ws ws' → Steps nf ρ d ops ws' ws'' → Steps nf ρ d (op :: ops) ws ws''

/-- The argument locations of an operation hold objects of the environment `R`, and positions lie in the list of length `n`. -/
def Fine (e : ElemSpec nf (ops C i) W) (R : HProp V) (ρ : Loc → W) (n : Nat) : Op → Prop
  | .pushBack a => Holds e R a (ρ a)
  | .pushFront a => Holds e R a (ρ a)
  | .insert k a => k ≤ n ∧ Holds e R a (ρ a)
  | .erase k => k < n
  | .eraseRange k m => k + m ≤ n
  | .resizeWith _ a => Holds e R a (ρ a)
  | _ => True

/-- … at every moment of the history, however it goes -/
def FineAll (e : ElemSpec nf (ops C i) W) (R : HProp V) (ρ : Loc → W) : List Op → List W → Prop
  | [], _ => True
  | op :: ops, ws => Fine e R ρ ws.length op ∧ ∀ ws', Step nf ρ e.dflt op ws ws' → FineAll e R ρ ops ws'

theorem advance_spec {X Y : List (Elem W)} {k : Nat} (hk : X.length = k) :
    Triple nf (isList e Own l s t (X ++ Y)) (do let b ← begin_ l; advanceFwd b k) (fun r => ⌜r = firstN Y s⌝ ∗ isList e Own l s t (X ++ Y)) := by
  subst hk
  refine Triple.bind begin_spec fun r => ?_
  xsub
  have key : ∀ (M : List (Elem W)) (Z : List (Elem W)), X ++ Y = Z ++ (M ++ Y) →
      Triple nf (isList e Own l s t (X ++ Y)) (advanceFwd (firstN (M ++ Y) s) M.length) (fun r => ⌜r = firstN Y s⌝ ∗ isList e Own l s t (X ++ Y)) := by
    intro M
    induction M with
    | nil => intro Z _; simp only [List.length_nil, advanceFwd, List.nil_append]; apply Triple.ret; cancel
    | cons x M ih =>
      intro Z h
      simp only [List.length_cons, advanceFwd, List.cons_append, firstN_cons]
      have hx : isList e Own l s t (X ++ Y) = (hdr l s t ∗ (path s (nodes Z) ∗ link (lastN Z s) x.node ∗ (fld x.node 2 (firstN (M ++ Y) s) ∗ fld (firstN (M ++ Y) s) 1 x.node) ∗ pathTail (M ++ Y) s) ∗
          elts e Own (X ++ Y)) := by
        unfold isList
        conv => lhs; rw [h, List.cons_append, path_split_cons]
        rw [link, h]
        rfl
      have hrd : ReadsN (isList e Own l s t (X ++ Y)) (x.node, 2) (firstN (M ++ Y) s) := ReadsN.of_ent (by rw [hx]; cancel)
      exact ldN_reads hrd (ih (Z ++ [x]) (by simp [h]))
  exact key X [] (by simp)

theorem step_spec {ρ : Loc → W} {op : Op} (ha : Storage nf C i A Own) (hc : Calls i) (ht : t ≠ 0) (hf : Fine e R ρ xs.length op) :
    Triple nf (A ∗ info t i ∗ isList e Own l s t xs ∗ R) (runOp C l op)
      (fun _ => ∃ₛ ys, ⌜Step nf ρ e.dflt op (vals xs) (vals ys)⌝ ∗ A ∗ info t i ∗ isList e Own l s t ys ∗ R) := by
  cases op with
  | pushBack a =>
    refine Triple.post (pushBack_spec ha hc ht hf) fun _ => ?_
    xintro N ⟨h1, h2⟩
    apply ent_ex_right (xs ++ N)
    cancel
    rcases h2 with rfl | ⟨x, rfl, hx⟩
    · exact .inr ⟨fun h => h1 h rfl, by simp⟩
    · exact .inl (by simp [hx])
  | pushFront a =>
    refine Triple.post (pushFront_spec ha hc ht hf) fun _ => ?_
    xintro N ⟨h1, h2⟩
    apply ent_ex_right (N ++ xs)
    cancel
    rcases h2 with rfl | ⟨x, rfl, hx⟩
    · exact .inr ⟨fun h => h1 h rfl, by simp⟩
    · exact .inl (by simp [hx])
  | popBack =>
    refine Triple.call_frame (popBack_spec (e := e) (l := l) (s := s) (xs := xs) ha hc ht) (R := R) (by cancel) fun _ => ?_
    apply ent_ex_right xs.dropLast
    cancel
    simp [Step, List.map_dropLast]
  | popFront =>
    refine Triple.call_frame (popFront_spec (e := e) (l := l) (s := s) (xs := xs) ha hc ht) (R := R) (by cancel) fun _ => ?_
    apply ent_ex_right xs.tail
    cancel
    simp [Step, List.map_tail]
  | insert k a =>
    obtain ⟨X, Y, rfl, hX⟩ : ∃ X Y, xs = X ++ Y ∧ X.length = k := ⟨xs.take k, xs.drop k, (List.take_append_drop k xs).symm, by simp [hf.1]⟩
    unfold runOp
    dsimp only
    rw [← bind_assoc]
    refine Triple.bind_frame (advance_spec (e := e) (Own := Own) (l := l) (s := s) (t := t) (X := X) (Y := Y) hX) (R := A ∗ info t i ∗ R) (by cancel) fun r => ?_
    xsub
    refine Triple.bind (Triple.pre (by cancel) (insert_spec (e := e) (l := l) (s := s) (X := X) (Y := Y) ha hc ht hf.2)) fun r => ?_
    apply Triple.ret
    xintro N ⟨h1, h2, _⟩
    apply ent_ex_right (X ++ N ++ Y)
    cancel
    rcases h2 with rfl | ⟨x, rfl, hx⟩
    · exact .inr ⟨fun h => h1 h rfl, by simp⟩
    · exact .inl (by simp [hx, ← hX])
  | erase k =>
    obtain ⟨X, Y, rfl, hX⟩ : ∃ X Y, xs = X ++ Y ∧ X.length = k := ⟨xs.take k, xs.drop k, (List.take_append_drop k xs).symm, by simp [Nat.le_of_lt (show k < xs.length from hf)]⟩
    cases Y with
    | nil => simp only [Fine, List.append_nil] at hf; omega
    | cons x Y =>
      unfold runOp
      dsimp only
      rw [← bind_assoc]
      refine Triple.bind_frame (advance_spec (e := e) (Own := Own) (l := l) (s := s) (t := t) (X := X) (Y := x :: Y) hX) (R := A ∗ info t i ∗ R) (by cancel) fun r => ?_
      xsub
      rw [firstN_cons]
      refine Triple.bind_frame (erase_spec (e := e) (l := l) (s := s) (X := X) (Y := Y) (x := x) ha hc ht) (R := R) (by cancel) fun r => ?_
      apply Triple.ret
      xintro _
      apply ent_ex_right (X ++ Y)
      cancel
      simp [Step, ← hX, List.drop_append]
  | eraseRange k n =>
    have hf : k + n ≤ xs.length := hf
    obtain ⟨X, Y', rfl, hX⟩ : ∃ X Y, xs = X ++ Y ∧ X.length = k := ⟨xs.take k, xs.drop k, (List.take_append_drop k xs).symm, by simp; omega⟩
    obtain ⟨Y, Z, rfl, hY⟩ : ∃ Y Z, Y' = Y ++ Z ∧ Y.length = n := ⟨Y'.take n, Y'.drop n, (List.take_append_drop n Y').symm, by simp only [List.length_append] at hf; simp; omega⟩
    unfold runOp
    dsimp only
    refine Triple.bind_frame (advance_spec (e := e) (Own := Own) (l := l) (s := s) (t := t) (X := X) (Y := Y ++ Z) hX) (R := A ∗ info t i ∗ R) (by cancel) fun r => ?_
    xsub
    have h2 := advance_spec (e := e) (Own := Own) (l := l) (s := s) (t := t) (X := X ++ Y) (Y := Z) (k := k + n) (by simp [hX, hY])
    rw [List.append_assoc] at h2
    refine Triple.bind_frame h2 (R := A ∗ info t i ∗ R) (by cancel) fun r => ?_
    xsub
    refine Triple.bind (Triple.pre (by cancel) (eraseRange_spec (e := e) (l := l) (s := s) (X := X) (Y := Y) (Z := Z) (R := R) ha hc ht)) fun r => ?_
    refine Triple.pure_left fun _ => ?_
    apply Triple.ret
    apply ent_ex_right (X ++ Z)
    cancel
    simp [Step, ← hX, ← hY, List.drop_append]
  | clear =>
    refine Triple.call_frame (clear_spec (e := e) (l := l) (s := s) (xs := xs) ha hc ht) (R := R) (by cancel) fun _ => ?_
    apply ent_ex_right []
    cancel
  | resize n =>
    refine Triple.post (resizeWithValue_spec ha hc ht (.inl ⟨rfl, rfl⟩)) fun _ => ?_
    xintro N ⟨⟨j, hj, hN⟩, h2⟩
    apply ent_ex_right (xs.take n ++ N)
    cancel
    refine ⟨j, by simp [hN, List.map_take], by simpa using hj, fun h => ?_⟩
    have := congrArg List.length hN
    simp only [List.length_map, List.length_replicate] at this
    simp [← this, h2 h]
  | resizeWith n a =>
    refine Triple.post (resizeWithValue_spec ha hc ht (.inr hf)) fun _ => ?_
    xintro N ⟨⟨j, hj, hN⟩, h2⟩
    apply ent_ex_right (xs.take n ++ N)
    cancel
    refine ⟨j, by simp [hN, List.map_take], by simpa using hj, fun h => ?_⟩
    have := congrArg List.length hN
    simp only [List.length_map, List.length_replicate] at this
    simp [← this, h2 h]

/-- Any sequence of calls with fitting arguments: the list holds what the calls say, with the storage and the resources of exactly these elements; the descriptor, the allocator's data and the
argument objects are as they should be. -/
theorem C97_history {ρ : Loc → W} {ops : List Op} (ha : Storage nf C i A Own) (hc : Calls i) (ht : t ≠ 0) (hf : FineAll e R ρ ops (vals xs)) :
    Triple nf (A ∗ info t i ∗ isList e Own l s t xs ∗ R) (runOps C l ops)
      (fun _ => ∃ₛ ys, ⌜Steps nf ρ e.dflt ops (vals xs) (vals ys)⌝ ∗ A ∗ info t i ∗ isList e Own l s t ys ∗ R) := by
  induction ops generalizing xs with
  | nil =>
    apply Triple.ret
    apply ent_ex_right xs
    cancel
    exact .nil
  | cons op ops ih =>
    unfold runOps
    have h1 : Fine e R ρ xs.length op := by have := hf.1; rwa [List.length_map] at this
    refine Triple.bind (step_spec ha hc ht h1) fun _ => ?_
    refine Triple.ex_left fun ys => Triple.pure_left fun hy => ?_
    refine Triple.post (ih (hf.2 _ hy)) fun _ => ?_
    xintro zs hz
    apply ent_ex_right zs
    cancel
    exact .cons hy hz

/-- A whole life: create a list of the type, do anything, destroy it.  (`c_list_create` returns NULL if storage runs out.) -/
def life (C : Funs V) (t : Addr) (ops : List Op) : M V Unit := do
  let l ← listCreate t
  if l = 0 then pure () else do
  runOps C l ops
  destroy C l

/-- At the end of a list's life everything is as before: every element has been destroyed with the type's own `destroy` and its storage given back the way it came, and the argument objects, the
descriptor and the allocator's data are intact. -/
theorem C97_life {ρ : Loc → W} {ops : List Op} {m : Mem V} {F : HProp V} (ha : Storage nf C i A Own) (hi : Complete i) (ht : t ≠ 0) (hf : FineAll e R ρ ops [])
    (ho : nf → ∀ n, m.orc n ≠ 0) (hm : ((A ∗ info t i ∗ R) ∗ F) m.cells) :
    ∃ m', life C t ops m = some (.ok ((), m')) ∧ ((A ∗ info t i ∗ R) ∗ F) m'.cells := by
  have hc : Calls i := ⟨hi.2.1, hi.2.2.1, hi.2.2.2.1⟩
  have h : Triple nf (A ∗ info t i ∗ R) (life C t ops) (fun _ => A ∗ info t i ∗ R) := by
    unfold life listCreate
    rw [if_neg ht]
    simp only [bind_assoc]
    refine Triple.pre (P' := info t i ∗ A ∗ R) (by cancel) (validate_cps hi ?_)
    refine create_spec (e := e) (Own := Own) ht (fun h => ?_) fun l s hl => ?_
    · rw [if_pos rfl]
      exact Triple.ret (by cancel)
    · rw [if_neg hl]
      refine Triple.bind (Triple.pre (by cancel) (C97_history (e := e) (l := l) (s := s) (xs := []) ha hc ht hf)) fun _ => ?_
      refine Triple.ex_left fun ys => Triple.pure_left fun _ => ?_
      exact Triple.call_frame (destroy_spec (e := e) (l := l) (s := s) (xs := ys) ha hc ht) (R := R) (by cancel) fun _ => by cancel
  obtain ⟨_, m', h1, _, h2⟩ := h.run ho hm
  exact ⟨m', h1, h2⟩

/-- If storage does not run out, the values after a history without resizing are determined: they are what the same calls make of an ordinary list. -/
theorem C97_values {ρ : Loc → W} {d : W} {a b : Loc} {ws : List W} (h : Steps True ρ d [.pushBack a, .pushFront b, .popBack, .insert 1 a, .erase 0] [] ws) : ws = [ρ a] := by
  cases h with | cons h1 h => cases h with | cons h2 h => cases h with | cons h3 h => cases h with | cons h4 h => cases h with | cons h5 h =>
  cases h
  simp only [Step, not_true_eq_false, false_and, or_false] at h1 h2 h3 h4 h5
  subst h1 h2 h3 h4 h5
  rfl

/-- Copying a list: the copy is a list of the same type, with elements, storage and resources of its own, and the original is untouched.  If storage runs out, NULL is returned or elements are missing
in the copy; what there is is as it should be. -/
theorem C97_copy {o s2 : Addr} {ys : List (Elem W)} (ha : Storage nf C i A Own) (hi : Complete i) (ht : t ≠ 0) :
    Triple nf (A ∗ info t i ∗ isList e Own o s2 t ys ∗ R) (copy C o)
      (fun r => A ∗ info t i ∗ isList e Own o s2 t ys ∗ R ∗ ∃ₛ N, ⌜(r = 0 → ¬ nf) ∧ (vals N).Sublist (vals ys) ∧ (nf → vals N = vals ys)⌝ ∗
        if r = 0 then ⌜N = []⌝ else ∃ₛ s, isList e Own r s t N) := copy_spec ha hi ht

/-- Assigning a list to another one of the same type: the elements of the destination are destroyed and their storage given back, and it gets copies of its own of the source's elements. -/
theorem C97_assign {o s2 : Addr} {ys : List (Elem W)} (ha : Storage nf C i A Own) (hc : Calls i) (ht : t ≠ 0) :
    Triple nf (A ∗ info t i ∗ isList e Own l s t xs ∗ isList e Own o s2 t ys ∗ R) (assign C l o)
      (fun r => ∃ₛ N, ⌜r = l ∧ (vals N).Sublist (vals ys) ∧ (nf → vals N = vals ys)⌝ ∗ A ∗ info t i ∗ isList e Own l s t N ∗ isList e Own o s2 t ys ∗ R) := assign_spec ha hc ht

/-- Assigning a list to one of another type: its elements are destroyed with their own type's `destroy` and their storage goes back to their own type's allocator; the new ones are created and stored
as elements of the source's type, which the destination has from now on. -/
theorem C97_assign_other {o s2 : Addr} {ys : List (Elem W)} {i₁ : Table} {t₁ : Addr} {A₁ : HProp V} {Own₁ : Addr → HProp V} {W₁ : Type} {e₁ : ElemSpec nf (ops C i₁) W₁} {zs : List (Elem W₁)}
    (ha₁ : Storage nf C i₁ A₁ Own₁) (hc₁ : Calls i₁) (ht₁ : t₁ ≠ 0) (ha : Storage nf C i A Own) (hc : Calls i) (ht : t ≠ 0) :
    Triple nf (A₁ ∗ info t₁ i₁ ∗ A ∗ info t i ∗ isList e₁ Own₁ l s t₁ zs ∗ isList e Own o s2 t ys ∗ R) (assign C l o)
      (fun r => ∃ₛ N, ⌜r = l ∧ (vals N).Sublist (vals ys) ∧ (nf → vals N = vals ys)⌝ ∗ A₁ ∗ info t₁ i₁ ∗ A ∗ info t i ∗ isList e Own l s t N ∗ isList e Own o s2 t ys ∗ R) :=
  assign_other (C₁ := C) ha₁ hc₁ ht₁ ha hc ht

/-- A list is created, used, copied; the original is destroyed, and the copy is used and then destroyed. -/
def life2 (C : Funs V) (t : Addr) (ops ops' : List Op) : M V Unit := do
  let l ← listCreate t
  if l = 0 then pure () else do
  runOps C l ops
  let r ← copy C l
  destroy C l
  if r = 0 then pure () else do
  runOps C r ops'
  destroy C r

/-- … and everything is as before -/
theorem C97_copied_life {ρ : Loc → W} {ops ops' : List Op} {m : Mem V} {F : HProp V} (ha : Storage nf C i A Own) (hi : Complete i) (ht : t ≠ 0) (hf : FineAll e R ρ ops [])
    (hf' : ∀ ws ws', Steps nf ρ e.dflt ops [] ws → ws'.Sublist ws → (nf → ws' = ws) → FineAll e R ρ ops' ws')
    (ho : nf → ∀ n, m.orc n ≠ 0) (hm : ((A ∗ info t i ∗ R) ∗ F) m.cells) :
    ∃ m', life2 C t ops ops' m = some (.ok ((), m')) ∧ ((A ∗ info t i ∗ R) ∗ F) m'.cells := by
  have hc : Calls i := ⟨hi.2.1, hi.2.2.1, hi.2.2.2.1⟩
  have h : Triple nf (A ∗ info t i ∗ R) (life2 C t ops ops') (fun _ => A ∗ info t i ∗ R) := by
    unfold life2 listCreate
    rw [if_neg ht]
    simp only [bind_assoc]
    refine Triple.pre (P' := info t i ∗ A ∗ R) (by cancel) (validate_cps hi ?_)
    refine create_spec (e := e) (Own := Own) ht (fun h => ?_) fun l s hl => ?_
    · rw [if_pos rfl]
      exact Triple.ret (by cancel)
    · rw [if_neg hl]
      refine Triple.bind (Triple.pre (by cancel) (C97_history (e := e) (l := l) (s := s) (xs := []) ha hc ht hf)) fun _ => ?_
      refine Triple.ex_left fun ys => Triple.pure_left fun hy => ?_
      refine Triple.bind (C97_copy (e := e) (o := l) (s2 := s) (ys := ys) ha hi ht) fun r => ?_
      refine Triple.pre (P' := ∃ₛ N, ⌜(r = 0 → ¬ nf) ∧ (vals N).Sublist (vals ys) ∧ (nf → vals N = vals ys)⌝ ∗
        (if r = 0 then ⌜N = []⌝ else ∃ₛ s, isList e Own r s t N) ∗ A ∗ info t i ∗ isList e Own l s t ys ∗ R) ?_ ?_
      · xintro N hN
        apply ent_ex_right N
        cancel
      refine Triple.ex_left fun N => Triple.pure_left fun hN => ?_
      by_cases hr : r = 0
      · rw [if_pos hr]
        refine Triple.pure_left fun _ => ?_
        refine Triple.bind_frame (destroy_spec (e := e) (l := l) (s := s) (xs := ys) ha hc ht) (R := R) (by cancel) fun _ => ?_
        rw [if_pos hr]
        exact Triple.ret (by cancel)
      · rw [if_neg hr]
        refine Triple.ex_left' fun s' => ?_
        refine Triple.bind_frame (destroy_spec (e := e) (l := l) (s := s) (xs := ys) ha hc ht) (R := isList e Own r s' t N ∗ R) (by cancel) fun _ => ?_
        rw [if_neg hr]
        refine Triple.bind (Triple.pre (by cancel) (C97_history (e := e) (l := r) (s := s') (xs := N) ha hc ht (hf' _ _ (by simpa using hy) hN.2.1 hN.2.2))) fun _ => ?_
        refine Triple.ex_left fun zs => Triple.pure_left fun _ => ?_
        exact Triple.call_frame (destroy_spec (e := e) (l := r) (s := s') (xs := zs) ha hc ht) (R := R) (by cancel) fun _ => by cancel
  obtain ⟨_, m', h1, _, h2⟩ := h.run ho hm
  exact ⟨m', h1, h2⟩

/-! ## an example: elements that own a box, in storage marked by its allocator -/

/-- The client's functions of the example: boxes (`boxOps`), and an allocator that marks every storage block with 77 in a slot behind the object, and whose `deallocate` checks the mark. -/
def marked (ty : Ty V) : Funs V where
  alloc _ := do
    let a ← mallocO 2
    if a = 0 then pure 0 else do
    stN (a, 2) 77
    pure a
  dealloc _ a := do
    let x ← ldN (a, 2)
    cassert (x == 77)
    free a
  create _ := (boxOps ty).create
  copy _ := (boxOps ty).copy
  destroy _ := (boxOps ty).destroy

theorem marked_storage (ty : Ty V) (i : Table) (h1 : i.allocate ≠ 0) (h2 : i.deallocate ≠ 0) : Storage True (marked ty) i emp (fun a => blk a 2 ∗ fld a 2 77) := by
  refine ⟨.inr ⟨h1, ?_⟩, .inr ⟨h2, fun a x => ?_⟩⟩
  · dsimp only [marked]
    refine mallocO_spec (fun h => absurd trivial h) fun a ha => ?_
    rw [if_neg ha]
    simp only [raws]
    xintro x y
    steps
    apply Triple.ret
    rw [if_neg ha]
    xexists x
    cancel
  · dsimp only [marked]
    rw [emp_sep]
    steps
    · rfl
    call free2
    intro _
    cancel

/-- a life with elements of its own kind, in a concrete memory -/
example (ty : Ty V) (v : V) : ∃ (m : Mem V) (t : Nat) (a : Loc) (R F : HProp V) (i : Table) (e : ElemSpec True (ops (marked ty) i) V), i.allocate ≠ 0 ∧ i.deallocate ≠ 0 ∧ Complete i ∧ t ≠ 0 ∧
    (∀ n, m.orc n ≠ 0) ∧ FineAll e R (fun _ => v) [.pushBack a, .pushFront a, .resize 5, .insert 1 a, .erase 0, .popBack] [] ∧
    (∀ ws, FineAll e R (fun _ => v) [.pushFront a, .resizeWith 9 a, .popFront] ws) ∧ ((emp ∗ info t i ∗ R) ∗ F) m.cells := by
  obtain ⟨m, t, l1, l2, R, ht, ho, hm⟩ := exists_info (V := V) ⟨1, 8, 2, 3, 4, 9, 5, 0, 0⟩ v v
  have hl : l1.1 ≠ 0 := by
    rw [sep_left_comm] at hm
    exact pts_ne_zero hm
  obtain ⟨_, m', _, ho', hm'⟩ := (show Triple True (pts l1 (.obj (some v))) (do
      let p ← mallocO 1
      construct (p, 1) v
      stN l1 p : M V Unit) (fun _ => cell (boxSpec ty) l1 v) from by
    refine mallocO1 (fun h => absurd trivial h) fun p hp => ?_
    steps
    apply Triple.ret
    unfold cell
    apply ent_ex_right (.num p)
    unfold boxSpec
    dsimp only
    xexists p
    cancel).run (s := m) (F := info t ⟨1, 8, 2, 3, 4, 9, 5, 0, 0⟩ ∗ pts l2 (.obj (some v)) ∗ R) (fun _ => ho) ((show _ ⊢ₛ _ by cancel) _ hm)
  have hh : ∀ P : HProp V, Holds (C := marked ty) (i := ⟨1, 8, 2, 3, 4, 9, 5, 0, 0⟩) (boxSpec ty) (cell (boxSpec ty) l1 v ∗ P) l1 v := fun P => ⟨hl, P, rfl⟩
  refine ⟨m', t, l1, cell (boxSpec ty) l1 v ∗ emp, pts l2 (.obj (some v)) ∗ R, ⟨1, 8, 2, 3, 4, 9, 5, 0, 0⟩, boxSpec ty, by decide, by decide, by simp [Complete], ht, by rw [ho']; exact ho, ?_,
    fun _ => ⟨hh _, fun _ _ => ⟨hh _, fun _ _ => ⟨trivial, fun _ _ => trivial⟩⟩⟩, (show _ ⊢ₛ _ by cancel) _ hm'⟩
  refine ⟨hh _, fun w1 h1 => ⟨hh _, fun w2 h2 => ⟨trivial, fun w3 h3 => ⟨⟨?_, hh _⟩, fun w4 h4 => ⟨?_, fun _ _ => ⟨trivial, fun _ _ => trivial⟩⟩⟩⟩⟩⟩
  · simp only [Step, not_true_eq_false, false_and, or_false] at h1 h2
    subst h1 h2
    obtain ⟨j, rfl, _, h⟩ := h3
    simp
  · simp only [Step, not_true_eq_false, false_and, or_false] at h4
    subst h4
    show 0 < _
    simp
    omega

end CC.Info.L
