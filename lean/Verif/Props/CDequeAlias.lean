import Verif.Deq.Bugs
import Verif.Props.CDeque
/-!
# C72, C73: deques and their own elements

`isDeq e v b lo hi ws`: see Props/CDeque.lean.  In C72 the argument of the operation is the address of element number `j` of the deque itself, obtained from `c_deque_at`;
`ws.take i ++ w :: ws.drop i` is the sequence `ws` with `w` inserted at position `i`.
-/
namespace CC.Deq
open CC CC.Tac
open CC.Vec (intTy arg arg_cell arg_null plain_live)
variable {V W : Type} {nf : Prop} {T : Nat → Ops V} {ty : Nat} {e : ElemSpec nf (T ty) W}
variable {v b lo hi : Nat} {ws : List W} {R : HProp V}

/-! ## C72 references to the deque's own elements -/

/-- push_back of one of the deque's own elements copies it, if there is an unused slot behind the elements. (Missing: the other deques, see `C72_push_back_violated`.) -/
theorem C72_push_back_partial {j : Nat} {w : W} (hw : ws[j]? = some w) (hroom : 0 < hi) :
    Triple nf (isDeq e v b lo hi ws) (do let r ← at_ v j; pushBack T v r) (fun _ => isDeq e v b lo (hi - 1) (ws ++ [w])) := pushBack_alias hw hroom

/-- push_front of one of the deque's own elements copies it, if there is an unused slot in front of the elements. (Missing: the other deques, see `C72_push_front_violated`.) -/
theorem C72_push_front_partial {j : Nat} {w : W} (hw : ws[j]? = some w) (hroom : 0 < lo) :
    Triple nf (isDeq e v b lo hi ws) (do let r ← at_ v j; pushFront T v r) (fun _ => isDeq e v b (lo - 1) hi (w :: ws)) := pushFront_alias hw hroom

/-- push_back of any of the deque's own elements reads freed memory if there is no unused slot behind the elements, however many there are in front of them. -/
theorem C72_push_back_violated {t : Ty V} {ws : List V} {j : Nat} (hj : j < ws.length) :
    Bad (isDeq (T := fun _ => plainOps t) (ty := ty) (plainSpec (nf := True) t) v b lo 0 ws) (do
      let r ← at_ v j
      pushBack (fun _ => plainOps t) v r) :=
  pushBack_alias_bad (T := fun _ => plainOps t) rfl (plain_plain t) hj

/-- push_front of any of the deque's own elements reads freed memory if there is no unused slot in front of the elements. -/
theorem C72_push_front_violated {t : Ty V} {ws : List V} {j : Nat} (hj : j < ws.length) :
    Bad (isDeq (T := fun _ => plainOps t) (ty := ty) (plainSpec (nf := True) t) v b 0 hi ws) (do
      let r ← at_ v j
      pushFront (fun _ => plainOps t) v r) :=
  pushFront_alias_bad (T := fun _ => plainOps t) rfl (plain_plain t) hj

/-- insert of one of the deque's own elements (number `j`) at position `i`, with an unused slot behind the elements: correct for an element in front of the position … -/
theorem C72_insert_end_partial {i j : Nat} {w : W} (hj : ws[j]? = some w) (hji : j < i) (hi' : i ≤ ws.length) (hroom : 0 < hi) :
    Triple nf (isDeq e v b lo hi ws) (do let r ← at_ v j; insert T v (b, 1 + lo + i) r)
      (fun r => ⌜r = (b, 1 + lo + i)⌝ ∗ isDeq e v b lo (hi - 1) (ws.take i ++ w :: ws.drop i)) := by
  refine insert_alias_end hi' (by omega) (by omega) hroom ?_
  rw [if_pos hji]; exact hj

/-- … but for an element behind the position the element before it is copied instead. -/
theorem C72_insert_end_violated {i j : Nat} {w : W} (hj : ws[j - 1]? = some w) (hij : i < j) (hjl : j < ws.length) (hroom : 0 < hi) :
    Triple nf (isDeq e v b lo hi ws) (do let r ← at_ v j; insert T v (b, 1 + lo + i) r)
      (fun r => ⌜r = (b, 1 + lo + i)⌝ ∗ isDeq e v b lo (hi - 1) (ws.take i ++ w :: ws.drop i)) := by
  refine insert_alias_end (by omega) hjl (by omega) hroom ?_
  rw [if_neg (by omega)]; exact hj

/-- With unused slots in front of the elements only: correct for an element at or behind the position … -/
theorem C72_insert_start_partial {i j : Nat} {w : W} (hj : ws[j]? = some w) (hij : i ≤ j) (hroom : 0 < lo) :
    Triple nf (isDeq e v b lo 0 ws) (do let r ← at_ v j; insert T v (b, 1 + lo + i) r)
      (fun r => ⌜r = (b, lo + i)⌝ ∗ isDeq e v b (lo - 1) 0 (ws.take i ++ w :: ws.drop i)) := by
  have hlen : j < ws.length := (List.getElem?_eq_some_iff.1 hj).1
  refine insert_alias_start (by omega) hlen (by omega) hroom ?_
  rw [if_neg (by omega)]; exact hj

/-- … but for an element in front of the position (not the last one) the element behind it is copied instead. -/
theorem C72_insert_start_violated {i j : Nat} {w : W} (hj : ws[j + 1]? = some w) (hji : j + 1 < i) (hi' : i ≤ ws.length) (hroom : 0 < lo) :
    Triple nf (isDeq e v b lo 0 ws) (do let r ← at_ v j; insert T v (b, 1 + lo + i) r)
      (fun r => ⌜r = (b, lo + i)⌝ ∗ isDeq e v b (lo - 1) 0 (ws.take i ++ w :: ws.drop i)) := by
  refine insert_alias_start hi' (by omega) (by omega) hroom ?_
  rw [if_pos (by omega)]; exact hj

/-- Without unused slots, insert of any of the deque's own elements at any position reads freed memory. -/
theorem C72_insert_full_violated {t : Ty V} {ws : List V} {i j : Nat} (hi' : i ≤ ws.length) (hj : j < ws.length) :
    Bad (isDeq (T := fun _ => plainOps t) (ty := ty) (plainSpec (nf := True) t) v b 0 0 ws) (do
      let r ← at_ v j
      insert (fun _ => plainOps t) v (b, 1 + i) r) :=
  insert_alias_bad (T := fun _ => plainOps t) rfl (plain_plain t) hi' hj

/-- inserting element 2 (the value 3) of `[1, 2, 3]` in front inserts 2, if there is an unused slot behind … -/
example {nf : Prop} {v b : Nat} : Triple nf (isDeq (T := fun _ => plainOps intTy) (ty := 1) (plainSpec (nf := nf) intTy) v b 0 5 [1, 2, 3])
      (do let r ← at_ v 2; insert (fun _ => plainOps intTy) v (b, 1) r)
      (fun r => ⌜r = (b, 1)⌝ ∗ isDeq (T := fun _ => plainOps intTy) (ty := 1) (plainSpec (nf := nf) intTy) v b 0 4 [2, 1, 2, 3]) :=
  C72_insert_end_violated (i := 0) (j := 2) (w := 2) rfl (by omega) (by simp) (by simp)

/-- … and inserting element 0 (the value 1) at the end inserts 2, if there are unused slots in front only. -/
example {nf : Prop} {v b : Nat} : Triple nf (isDeq (T := fun _ => plainOps intTy) (ty := 1) (plainSpec (nf := nf) intTy) v b 5 0 [1, 2, 3])
      (do let r ← at_ v 0; insert (fun _ => plainOps intTy) v (b, 1 + 5 + 3) r)
      (fun r => ⌜r = (b, 5 + 3)⌝ ∗ isDeq (T := fun _ => plainOps intTy) (ty := 1) (plainSpec (nf := nf) intTy) v b 4 0 [1, 2, 3, 2]) :=
  C72_insert_start_violated (i := 3) (j := 0) (w := 2) rfl (by omega) (by simp) (by simp)

/-- memories reached by the API in which pushing an own element is undefined behaviour: a deque of three `int`s without unused slots -/
example : ∃ (m : Mem Nat) (v : Addr), (do let r ← at_ v 1; pushBack (fun _ => plainOps intTy) v r) m = some (.error .ub) := by
  obtain ⟨m, v, b, v2, b2, ho, hm⟩ := exists_deqs (T := fun _ => plainOps intTy) (ty := 1) (plainSpec (nf := True) intTy) (plain_plain _) (by simp) 3 0 0 0
  obtain ⟨_, m', _, ho', hm'⟩ := (destroy_spec (T := fun _ => plainOps intTy) (ty := 1) (e := plainSpec (nf := True) intTy) (v := v2) (b := b2) (lo := 0) (hi := 0) (ws := [])).run
    (F := isDeq (T := fun _ => plainOps intTy) (ty := 1) (plainSpec (nf := True) intTy) v b 0 0 [0, 0, 0]) (s := m) (fun _ => ho) (by rw [sep_comm]; exact hm)
  rw [emp_sep] at hm'
  exact ⟨m', v, C72_push_back_violated (j := 1) (by simp) m' (by rw [ho']; exact ho) hm'⟩

/-! ## C73 every element is destroyed exactly once -/

/-- Element types that own resources (any proper element type, `ElemSpec`): create, any history that never relocates elements that own something, destroy.  Afterwards the
memory is bit for bit what it was: everything created was destroyed, nothing twice (a second destruction of an object would need resources that are gone).
(Missing: histories that reallocate, see `C73_violated`; for plain data they are included here.) -/
theorem C73_lifecycle_partial {ops : List Op} {ρ : Loc → W} (hty : ty ≠ 0) (m : Mem V) (hm : nf → ∀ t, m.orc t ≠ 0)
    (hv : ValidOps e (exactly m.cells) ρ ops ⟨0, 0, []⟩) :
    ∃ m' : Mem V, (do
        let v ← create ty
        if v = 0 then pure () else do
        runOps T v ops
        destroy T v : M V Unit) m = some (.ok ((), m')) ∧ m'.cells = m.cells := C24_lifecycle hty m hm hv

/-- destroy releases exactly the deque and its elements: the rest of the memory (`F`) is all that remains -/
theorem C73_destroy {F : HProp V} {m : Mem V} (hnf : nf → ∀ t, m.orc t ≠ 0) (hm : (isDeq e v b lo hi ws ∗ F) m.cells) :
    ∃ m' : Mem V, destroy T v m = some (.ok ((), m')) ∧ F m'.cells := by
  obtain ⟨_, m', h1, _, h2⟩ := (destroy_spec (e := e)).run (F := F) hnf hm
  rw [emp_sep] at h2
  exact ⟨m', h1, h2⟩

/-- Relocation destroys the elements although their bits live on: a deque of elements that own memory, with an unused slot, is shrunk and then destroyed —
the first element is destroyed a second time. -/
theorem C73_violated {t : Ty V} {w : V} {ws : List V} (hspare : 0 < lo + hi) :
    Bad (isDeq (T := fun _ => boxOps t) (ty := ty) (boxSpec t) v b lo hi (w :: ws)) (do
      shrinkToFit (fun _ => boxOps t) v
      destroy (fun _ => boxOps t) v) := shrink_destroy_bad hspare

/-- such deques exist: the API reaches a memory that consists exactly of a deque of two elements that own memory, with an unused slot -/
example (t : Ty Nat) : ∃ (m : Mem Nat) (v b lo hi : Addr), 0 < lo + hi ∧ (∀ t, m.orc t ≠ 0) ∧
    (isDeq (T := fun _ => boxOps t) (ty := 1) (boxSpec t) v b lo hi [t.dflt, t.dflt]) m.cells := by
  have ht : Triple True emp (do
        let v ← create 1
        resize (fun _ => boxOps t) v 3
        popBack (fun _ => boxOps t) v
        pure v) (fun r => ∃ₛ b lo hi, ⌜0 < lo + hi⌝ ∗ isDeq (T := fun _ => boxOps t) (ty := 1) (boxSpec t) r b lo hi [t.dflt, t.dflt]) := by
    call (create_spec (T := fun _ => boxOps t) (ty := 1) (e := boxSpec t) (by simp))
    intro v
    xintro hv
    rw [if_neg (fun h => hv h trivial)]
    have h1 := resize_any (T := fun _ => boxOps t) (ty := 1) (e := boxSpec t) (v := v) (b := 0) (lo := 0) (hi := 0) (ws := []) (count := 3) (value := (0, 0)) (w := t.dflt)
      (Or.inr (Or.inl rfl))
    rw [arg_null rfl] at h1
    refine Triple.bind (Q := fun _ => ∃ₛ b lo hi, isDeq (T := fun _ => boxOps t) (ty := 1) (boxSpec t) v b lo hi ([t.dflt, t.dflt] ++ [t.dflt])) ?_ ?_
    · unfold resize
      call h1
      · rfl
      intro _
      xintro b' lo' hi' ws' h2 h3
      obtain ⟨h3, _⟩ := h2.1.resolve_right (fun h => h.1 trivial)
      simp [List.replicate] at h3
      subst h3
      xexists b', lo', hi'
      cancel
    intro _
    xintro b lo hi
    rw [sep_emp]
    refine Triple.bind popBack_spec ?_
    intro _
    apply Triple.ret
    xexists b, lo, (hi + 1)
    cancel
    omega
  obtain ⟨m, ho, hm⟩ := exists_array ([] : List Nat) (fun _ => 1)
  obtain ⟨r, m', _, ho', hm'⟩ := ht.run (F := emp) (s := m) (fun _ t => by rw [ho]; simp) (by rw [sep_emp]; exact hm)
  rw [sep_emp] at hm'
  obtain ⟨b, lo, hi, hm'⟩ := hm'
  rw [hpure_sep_apply] at hm'
  exact ⟨m', r, b, lo, hi, hm'.1, by rw [ho', ho]; simp, hm'.2⟩

end CC.Deq
