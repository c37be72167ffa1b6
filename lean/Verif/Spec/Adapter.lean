import Verif.Spec.Heap
/-!
# Specification vocabulary: stacks, queues, priority queues as abstract data types (no reference to the code)

`nf` says that memory allocation never fails; only if it can fail may a push have no effect.
-/
namespace CC

/-- what a client observes of an operation -/
inductive Out (V : Type) where
  | done
  | elem (o : Option V)     -- the element a returned reference designates; `none` for NULL
  | flag (b : Bool)
  | num (n : Nat)

variable {A V : Type}

inductive StackOp (A : Type) where
  | push (a : A) | pop | top | empty

/-- A LIFO stack, last pushed element first.  `ρ a` is the value of the argument `a`. -/
def StackStep (ρ : A → V) (nf : Prop) : StackOp A → List V → Out V → List V → Prop
  | .push a, st, out, st' => out = .done ∧ (st' = ρ a :: st ∨ (¬ nf ∧ st' = st))
  | .pop, st, out, st' => out = .done ∧ st' = st.tail
  | .top, st, out, st' => out = .elem st.head? ∧ st' = st
  | .empty, st, out, st' => out = .flag st.isEmpty ∧ st' = st

inductive QueueOp (A : Type) where
  | push (a : A) | pop | front | back | empty | size

/-- A FIFO queue, first pushed element first. -/
def QueueStep (ρ : A → V) (nf : Prop) : QueueOp A → List V → Out V → List V → Prop
  | .push a, st, out, st' => out = .done ∧ (st' = st ++ [ρ a] ∨ (¬ nf ∧ st' = st))
  | .pop, st, out, st' => out = .done ∧ st' = st.tail
  | .front, st, out, st' => out = .elem st.head? ∧ st' = st
  | .back, st, out, st' => out = .elem st.getLast? ∧ st' = st
  | .empty, st, out, st' => out = .flag st.isEmpty ∧ st' = st
  | .size, st, out, st' => out = .num st.length ∧ st' = st

inductive PqOp (A : Type) where
  | push (a : A) | pop | top | empty | size

/-- A priority queue ordered by `lt`: a collection with a designated element, the first of the list, that is a maximum. -/
def PqOk (lt : V → V → Bool) (st : List V) : Prop := ∀ m, st.head? = some m → IsMax lt st m

def PqStep (lt : V → V → Bool) (ρ : A → V) (nf : Prop) : PqOp A → List V → Out V → List V → Prop
  | .push a, st, out, st' => out = .done ∧ (st'.Perm (ρ a :: st) ∨ (¬ nf ∧ st'.Perm st)) ∧ PqOk lt st'
  | .pop, st, out, st' => out = .done ∧ st'.Perm st.tail ∧ PqOk lt st'
  | .top, st, out, st' => out = .elem st.head? ∧ st' = st
  | .empty, st, out, st' => out = .flag st.isEmpty ∧ st' = st
  | .size, st, out, st' => out = .num st.length ∧ st' = st

/-- a history: operations with their observations -/
inductive Runs {O S R : Type} (step : O → S → R → S → Prop) : List O → S → List R → S → Prop
  | nil (s : S) : Runs step [] s [] s
  | cons {o : O} {os : List O} {s1 s2 s3 : S} {r : R} {rs : List R} : step o s1 r s2 → Runs step os s2 rs s3 → Runs step (o :: os) s1 (r :: rs) s3

/-- Emptying a priority queue (asking for the top, popping, …) yields its elements in descending order. -/
theorem pq_drain {lt : V → V → Bool} {ρ : A → V} {nf : Prop} : ∀ {n : Nat} {st st' : List V} {outs : List (Out V)}, st.length = n → PqOk lt st →
    Runs (PqStep lt ρ nf) (List.flatten (List.replicate n [PqOp.top, PqOp.pop])) st outs st' →
    st' = [] ∧ ∃ vs : List V, outs = List.flatMap (fun v => [Out.elem (some v), Out.done]) vs ∧ vs.Perm st ∧ vs.Pairwise fun a b => lt a b = false
  | 0, st, st', outs, hn, _, h => by
    have hst : st = [] := List.eq_nil_of_length_eq_zero hn
    subst hst
    simp only [List.replicate_zero, List.flatten_nil] at h
    cases h
    exact ⟨rfl, [], rfl, List.Perm.refl _, List.Pairwise.nil⟩
  | n + 1, st, st', outs, hn, hok, h => by
    rw [List.replicate_succ, List.flatten_cons] at h
    cases h with
    | cons h1 h =>
      cases h with
      | cons h2 h =>
        rename_i s2 _ s3 _ _
        obtain ⟨rfl, h1⟩ := h1
        rw [h1] at h2
        obtain ⟨rfl, hp, hok'⟩ := h2
        cases st with
        | nil => simp at hn
        | cons m st =>
          obtain ⟨hm, hmax⟩ := hok m rfl
          have hl : s3.length = n := by rw [hp.length_eq]; simpa using hn
          obtain ⟨h1, vs, rfl, hvs, hs⟩ := pq_drain hl hok' h
          refine ⟨h1, m :: vs, rfl, (hvs.trans hp).cons m, List.Pairwise.cons ?_ hs⟩
          intro b hb
          exact hmax b (List.mem_cons_of_mem _ ((hvs.trans hp).mem_iff.1 hb))

end CC
