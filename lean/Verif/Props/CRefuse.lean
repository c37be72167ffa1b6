import Verif.Props.CResult
import Verif.Props.CIterTree
import Verif.IAlgo.Heap
/-!
# Property C75: algorithms do not write through the iterators of sets and maps

The elements of a set or map must not be overwritten (their order would be lost), so its iterators are not mutable (`C_ITER_MUTABLE`), and an algorithm that writes to a range must reject them: the call ends
in a failed assertion before anything is written.  All do except `algo_remove_copy_if`.
-/
namespace CC.IAlgo
open CC CC.Tac CC.Iter CC.Algo
open CC.CList (Elem vals)
open CC.Tree (isTree klt ek KSorted)
variable {V α β : Type} {Z : Nat → Nat} {P : HProp V} {r r1 r2 r3 r4 : Src V} {first last dFirst nFirst first2 last2 x y i i1 i2 i3 i4 j n : Nat} {value new : Loc} {low : Nat → Nat} {o o2 : IAlgo.Out}

/-- an iterator object of a set or map -/
def OfTree (P : HProp V) (x : Nat) : Prop := ∃ (r : Src V) (i : Nat), At P r x i ∧ (r.kind = .tree ∨ r.kind = .treeR)
/-- an iterator object of any container -/
def OfAny (P : HProp V) (x : Nat) : Prop := ∃ (r : Src V) (i : Nat), At P r x i
/-- an argument for a result: NULL, or the address of a variable that holds NULL or (the address of) an iterator object -/
def AnyOut (P : HProp V) (o : IAlgo.Out) : Prop := ∃ l : Loc, o = .var l ∧ (l.1 = 0 ∨ ∃ (q : Nat) (R : HProp V), (P ⊢ₛ pts l (.num q) ∗ R) ∧ (q = 0 ∨ OfAny P q))

theorem OfTree.any (h : OfTree P x) : OfAny P x := by
  obtain ⟨r, i, h, _⟩ := h
  exact ⟨r, i, h⟩

theorem Aborts.fact {p : Prop} {m : M V α} (hp : ∀ h, P h → p) (hk : p → Aborts P m) : Aborts P m := fun s hs => hk (hp _ hs) s hs

/-- a check: it fails or changes nothing -/
def Check (P : HProp V) (m : M V Unit) : Prop := ∀ s : Mem V, P s.cells → m s = some (.error .abort) ∨ ∃ s' : Mem V, m s = some (.ok ((), s')) ∧ P s'.cells

theorem Check.pure : Check P (pure ()) := fun s hs => .inr ⟨s, rfl, hs⟩

theorem Check.cassert {b : Bool} : Check P (cassert b) := by
  intro s hs
  cases b with
  | true => exact .inr ⟨s, rfl, hs⟩
  | false => exact .inl rfl

theorem Check.bind {m : M V Unit} {f : Unit → M V α} (hm : Check P m) (hf : Aborts P (f ())) : Aborts P (m >>= f) := by
  intro s hs
  rcases hm s hs with h | ⟨s', h, hs'⟩
  · exact bind_error h
  · rw [bind_ok h]; exact hf s' hs'

theorem read_run {l : Loc} {k : Nat} (h : ReadsN P l k) {s : Mem V} (hs : P s.cells) : ∃ s', ldN l s = some (.ok (k, s')) ∧ P s'.cells := by
  have ht : Triple False P (ldN l) (fun a => ⌜a = k⌝ ∗ P) := by
    rw [← bind_pure (ldN l)]
    refine ldN_reads h ?_
    exact Triple.ret (ent_pure_right rfl (ent_refl _))
  obtain ⟨a, s', e1, _, e3⟩ := ht.run (F := emp) (s := s) (fun h => h.elim) (by rw [sep_emp]; exact hs)
  rw [sep_emp, hpure_sep_apply] at e3
  obtain ⟨rfl, e3⟩ := e3
  exact ⟨s', e1, e3⟩

theorem Check.read {l : Loc} {k : Nat} {f : Nat → M V Unit} (h : ReadsN P l k) (hf : Check P (f k)) : Check P (ldN l >>= f) := by
  intro s hs
  obtain ⟨s', e1, e2⟩ := read_run h hs
  rw [bind_ok e1]
  exact hf s' e2

theorem Aborts.read {l : Loc} {k : Nat} {f : Nat → M V α} (h : ReadsN P l k) (hf : Aborts P (f k)) : Aborts P (ldN l >>= f) := by
  intro s hs
  obtain ⟨s', e1, e2⟩ := read_run h hs
  rw [bind_ok e1]
  exact hf s' e2

theorem OfAny.ne (h : OfAny P x) : ∀ m, P m → x ≠ 0 := by
  obtain ⟨r, i, R, h⟩ := h
  exact fun m hm => isIt_ne (h m hm)

theorem OfAny.atLeast {c : Nat} (h : OfAny P x) : Check P (IAlgo.atLeast x c) := by
  intro s hs
  have hx := h.ne _ hs
  obtain ⟨r, i, R, h⟩ := h
  refine (show Check P (IAlgo.atLeast x c) from ?_) s hs
  unfold IAlgo.atLeast
  rw [if_neg hx]
  exact Check.read (ItAt.of_ent hx h).2.1 Check.cassert

theorem OfAny.exactly {c : Nat} (h : OfAny P x) : Check P (IAlgo.exactly x c) := by
  intro s hs
  have hx := h.ne _ hs
  obtain ⟨r, i, R, h⟩ := h
  refine (show Check P (IAlgo.exactly x c) from ?_) s hs
  unfold IAlgo.exactly
  rw [if_neg hx]
  exact Check.read (ItAt.of_ent hx h).2.1 Check.cassert

theorem OfAny.isMutable (h : OfAny P x) : Check P (IAlgo.isMutable x) := by
  intro s hs
  have hx := h.ne _ hs
  obtain ⟨r, i, R, h⟩ := h
  refine (show Check P (IAlgo.isMutable x) from ?_) s hs
  unfold IAlgo.isMutable
  rw [if_neg hx]
  exact Check.read (ItAt.of_ent hx h).2.2.1 Check.cassert

theorem AnyOut.lowCheck {c : Nat} (h : AnyOut P o) : Check P (o.lowCheck low c) := by
  obtain ⟨l, rfl, h⟩ := h
  unfold Out.lowCheck
  dsimp only
  split
  · exact Check.pure
  · rcases h with h | ⟨q, R, h, _⟩
    · contradiction
    · refine Check.read (ReadsN.of_ent h) ?_
      split
      · exact Check.pure
      · exact Check.cassert

theorem AnyOut.atLeast {c : Nat} (h : AnyOut P o) : Check P (o.atLeast c) := by
  obtain ⟨l, rfl, h⟩ := h
  unfold Out.atLeast
  dsimp only
  split
  · exact Check.pure
  · rcases h with h | ⟨q, R, h, hq⟩
    · contradiction
    · refine Check.read (ReadsN.of_ent h) ?_
      split
      · exact Check.pure
      · rcases hq with hq | hq
        · contradiction
        · exact hq.atLeast

theorem AnyOut.exactly {c : Nat} (h : AnyOut P o) : Check P (o.exactly c) := by
  obtain ⟨l, rfl, h⟩ := h
  unfold Out.exactly
  dsimp only
  split
  · exact Check.pure
  · rcases h with h | ⟨q, R, h, hq⟩
    · contradiction
    · refine Check.read (ReadsN.of_ent h) ?_
      split
      · exact Check.pure
      · rcases hq with hq | hq
        · contradiction
        · exact hq.exactly

/-- `assert(C_ITER_MUTABLE(x))` fails -/
theorem OfTree.stop (h : OfTree P x) {f : Unit → M V α} : Aborts P (IAlgo.isMutable x >>= f) := by
  refine Aborts.fact h.any.ne fun hx => ?_
  obtain ⟨r, i, ⟨R, h⟩, hk⟩ := h
  unfold IAlgo.isMutable
  rw [if_neg hx, bind_assoc]
  refine Aborts.read (ItAt.of_ent hx h).2.2.1 ?_
  intro s hs
  have : decide (r.kind.type < 7) = false := by rcases hk with hk | hk <;> rw [hk] <;> rfl
  rw [this]
  rfl

/-- `assert(C_ITER_EXACT(x, C_ITER_CATE_RANDOM))` fails -/
theorem OfTree.stop4 (h : OfTree P x) {f : Unit → M V α} : Aborts P (IAlgo.exactly x 4 >>= f) := by
  refine Aborts.fact h.any.ne fun hx => ?_
  obtain ⟨r, i, ⟨R, h⟩, hk⟩ := h
  unfold IAlgo.exactly
  rw [if_neg hx, bind_assoc]
  refine Aborts.read (ItAt.of_ent hx h).2.1 ?_
  intro s hs
  have : decide (r.kind.cate = 4) = false := by rcases hk with hk | hk <;> rw [hk] <;> rfl
  rw [this]
  rfl

/-- goes through the checks of an algorithm -/
macro "refuse" : tactic => `(tactic| repeat (first
  | exact OfTree.stop (by assumption)
  | exact OfTree.stop4 (by assumption)
  | refine Check.bind (OfAny.atLeast (by first | assumption | exact OfTree.any (by assumption))) ?_
  | refine Check.bind (OfAny.exactly (by first | assumption | exact OfTree.any (by assumption))) ?_
  | refine Check.bind (OfAny.isMutable (by first | assumption | exact OfTree.any (by assumption))) ?_
  | refine Check.bind (AnyOut.lowCheck (by assumption)) ?_
  | refine Check.bind (AnyOut.atLeast (by assumption)) ?_
  | refine Check.bind (AnyOut.exactly (by assumption)) ?_))

/-- `algo_copy` -/
theorem C75_copy_partial (h_dFirst : OfTree P dFirst) (h_first : OfAny P first) (h_last : OfAny P last) (h_o : AnyOut P o) : Aborts P (IAlgo.copy low first last dFirst o) := by
  refine Aborts.fact h_dFirst.any.ne fun e_dFirst => ?_
  refine Aborts.fact h_first.ne fun e_first => ?_
  refine Aborts.fact h_last.ne fun e_last => ?_
  unfold IAlgo.copy
  rw [if_neg (by simp [e_dFirst, e_first, e_last])]
  refuse

/-- `algo_copy_if` -/
theorem C75_copy_if_partial (pred : V → Bool) (h_dFirst : OfTree P dFirst) (h_first : OfAny P first) (h_last : OfAny P last) (h_o : AnyOut P o) : Aborts P (IAlgo.copyIf low first last dFirst o pred) := by
  refine Aborts.fact h_dFirst.any.ne fun e_dFirst => ?_
  refine Aborts.fact h_first.ne fun e_first => ?_
  refine Aborts.fact h_last.ne fun e_last => ?_
  unfold IAlgo.copyIf
  rw [if_neg (by simp [e_dFirst, e_first, e_last])]
  refuse

/-- `algo_copy_backward` -/
theorem C75_copy_backward_partial (h_dFirst : OfTree P dFirst) (h_first : OfAny P first) (h_last : OfAny P last) (h_o : AnyOut P o) : Aborts P (IAlgo.copyBackward low first last dFirst o) := by
  refine Aborts.fact h_dFirst.any.ne fun e_dFirst => ?_
  refine Aborts.fact h_first.ne fun e_first => ?_
  refine Aborts.fact h_last.ne fun e_last => ?_
  unfold IAlgo.copyBackward
  rw [if_neg (by simp [e_dFirst, e_first, e_last])]
  refuse

/-- `algo_fill` -/
theorem C75_fill_partial (h_first : OfTree P first) (h_last : OfAny P last) (n_value : value.1 ≠ 0) : Aborts P (IAlgo.fill first last value) := by
  refine Aborts.fact h_first.any.ne fun e_first => ?_
  refine Aborts.fact h_last.ne fun e_last => ?_
  unfold IAlgo.fill
  rw [if_neg (by simp [e_first, e_last, n_value])]
  refuse

/-- `algo_fill_n` -/
theorem C75_fill_n_partial (h_first : OfTree P first) (h_o : AnyOut P o) (n_value : value.1 ≠ 0) : Aborts P (IAlgo.fillN low first n value o) := by
  refine Aborts.fact h_first.any.ne fun e_first => ?_
  unfold IAlgo.fillN
  rw [if_neg (by simp [e_first, n_value])]
  refuse

/-- `algo_transform` -/
theorem C75_transform_partial (D : Nat → V) (op : V → V) (h_dFirst : OfTree P dFirst) (h_first : OfAny P first) (h_last : OfAny P last) : Aborts P (IAlgo.transform D first last dFirst op) := by
  refine Aborts.fact h_dFirst.any.ne fun e_dFirst => ?_
  refine Aborts.fact h_first.ne fun e_first => ?_
  refine Aborts.fact h_last.ne fun e_last => ?_
  unfold IAlgo.transform
  rw [if_neg (by simp [e_dFirst, e_first, e_last])]
  refuse

/-- `algo_generate` -/
theorem C75_generate_partial (gen : Nat → V) (h_first : OfTree P first) (h_last : OfAny P last) : Aborts P (IAlgo.generate first last gen) := by
  refine Aborts.fact h_first.any.ne fun e_first => ?_
  refine Aborts.fact h_last.ne fun e_last => ?_
  unfold IAlgo.generate
  rw [if_neg (by simp [e_first, e_last])]
  refuse

/-- `algo_generate_n` -/
theorem C75_generate_n_partial (gen : Nat → V) (h_first : OfTree P first) (h_o : AnyOut P o) : Aborts P (IAlgo.generateN low first n gen o) := by
  refine Aborts.fact h_first.any.ne fun e_first => ?_
  unfold IAlgo.generateN
  rw [if_neg (by simp [e_first])]
  refuse

/-- `algo_remove` -/
theorem C75_remove_partial (E : Nat → V → V → Bool) (h_first : OfTree P first) (h_last : OfAny P last) (h_o : AnyOut P o) (n_value : value.1 ≠ 0) : Aborts P (IAlgo.remove low E first last value o) := by
  refine Aborts.fact h_first.any.ne fun e_first => ?_
  refine Aborts.fact h_last.ne fun e_last => ?_
  unfold IAlgo.remove
  rw [if_neg (by simp [e_first, e_last, n_value])]
  refuse

/-- `algo_remove_if` -/
theorem C75_remove_if_partial (pred : V → Bool) (h_first : OfTree P first) (h_last : OfAny P last) (h_o : AnyOut P o) : Aborts P (IAlgo.removeIf low first last o pred) := by
  refine Aborts.fact h_first.any.ne fun e_first => ?_
  refine Aborts.fact h_last.ne fun e_last => ?_
  unfold IAlgo.removeIf
  rw [if_neg (by simp [e_first, e_last])]
  refuse

/-- `algo_remove_copy` -/
theorem C75_remove_copy_partial (E : Nat → V → V → Bool) (h_dFirst : OfTree P dFirst) (h_first : OfAny P first) (h_last : OfAny P last) (h_o : AnyOut P o) (n_value : value.1 ≠ 0) : Aborts P (IAlgo.removeCopy low E first last dFirst value o) := by
  refine Aborts.fact h_dFirst.any.ne fun e_dFirst => ?_
  refine Aborts.fact h_first.ne fun e_first => ?_
  refine Aborts.fact h_last.ne fun e_last => ?_
  unfold IAlgo.removeCopy
  rw [if_neg (by simp [e_dFirst, e_first, e_last, n_value])]
  refuse

/-- `algo_replace` -/
theorem C75_replace_partial (E : Nat → V → V → Bool) (h_first : OfTree P first) (h_last : OfAny P last) (n_value : value.1 ≠ 0) (n_new : new.1 ≠ 0) : Aborts P (IAlgo.replace E first last value new) := by
  refine Aborts.fact h_first.any.ne fun e_first => ?_
  refine Aborts.fact h_last.ne fun e_last => ?_
  unfold IAlgo.replace
  rw [if_neg (by simp [e_first, e_last, n_value, n_new])]
  refuse

/-- `algo_replace_if` -/
theorem C75_replace_if_partial (pred : V → Bool) (h_first : OfTree P first) (h_last : OfAny P last) (n_new : new.1 ≠ 0) : Aborts P (IAlgo.replaceIf first last pred new) := by
  refine Aborts.fact h_first.any.ne fun e_first => ?_
  refine Aborts.fact h_last.ne fun e_last => ?_
  unfold IAlgo.replaceIf
  rw [if_neg (by simp [e_first, e_last, n_new])]
  refuse

/-- `algo_replace_copy` -/
theorem C75_replace_copy_partial (E : Nat → V → V → Bool) (h_dFirst : OfTree P dFirst) (h_first : OfAny P first) (h_last : OfAny P last) (h_o : AnyOut P o) (n_value : value.1 ≠ 0) (n_new : new.1 ≠ 0) : Aborts P (IAlgo.replaceCopy low E first last dFirst value new o) := by
  refine Aborts.fact h_dFirst.any.ne fun e_dFirst => ?_
  refine Aborts.fact h_first.ne fun e_first => ?_
  refine Aborts.fact h_last.ne fun e_last => ?_
  unfold IAlgo.replaceCopy
  rw [if_neg (by simp [e_dFirst, e_first, e_last, n_value, n_new])]
  refuse

/-- `algo_replace_copy_if` -/
theorem C75_replace_copy_if_partial (pred : V → Bool) (h_dFirst : OfTree P dFirst) (h_first : OfAny P first) (h_last : OfAny P last) (h_o : AnyOut P o) (n_new : new.1 ≠ 0) : Aborts P (IAlgo.replaceCopyIf low first last dFirst pred new o) := by
  refine Aborts.fact h_dFirst.any.ne fun e_dFirst => ?_
  refine Aborts.fact h_first.ne fun e_first => ?_
  refine Aborts.fact h_last.ne fun e_last => ?_
  unfold IAlgo.replaceCopyIf
  rw [if_neg (by simp [e_dFirst, e_first, e_last, n_new])]
  refuse

/-- `algo_swap_range` -/
theorem C75_swap_range_partial (h_first : OfTree P first) (h_last : OfAny P last) (h_first2 : OfAny P first2) : Aborts P (IAlgo.swapRange first last first2) := by
  refine Aborts.fact h_first.any.ne fun e_first => ?_
  refine Aborts.fact h_last.ne fun e_last => ?_
  refine Aborts.fact h_first2.ne fun e_first2 => ?_
  unfold IAlgo.swapRange
  rw [if_neg (by simp [e_first, e_last, e_first2])]
  refuse

/-- `algo_swap_range`, the second range -/
theorem C75_swap_range2_partial (h_first2 : OfTree P first2) (h_first : OfAny P first) (h_last : OfAny P last) : Aborts P (IAlgo.swapRange first last first2) := by
  refine Aborts.fact h_first2.any.ne fun e_first2 => ?_
  refine Aborts.fact h_first.ne fun e_first => ?_
  refine Aborts.fact h_last.ne fun e_last => ?_
  unfold IAlgo.swapRange
  rw [if_neg (by simp [e_first2, e_first, e_last])]
  refuse

/-- `algo_iter_swap` -/
theorem C75_iter_swap_partial (h_x : OfTree P x) (h_y : OfAny P y) : Aborts P (IAlgo.iterSwap x y) := by
  refine Aborts.fact h_x.any.ne fun e_x => ?_
  refine Aborts.fact h_y.ne fun e_y => ?_
  unfold IAlgo.iterSwap
  rw [if_neg (by simp [e_x, e_y])]
  refuse

/-- `algo_iter_swap`, the second iterator -/
theorem C75_iter_swap2_partial (h_y : OfTree P y) (h_x : OfAny P x) : Aborts P (IAlgo.iterSwap x y) := by
  refine Aborts.fact h_y.any.ne fun e_y => ?_
  refine Aborts.fact h_x.ne fun e_x => ?_
  unfold IAlgo.iterSwap
  rw [if_neg (by simp [e_y, e_x])]
  refuse

/-- `algo_reverse` -/
theorem C75_reverse_partial (h_first : OfTree P first) (h_last : OfAny P last) : Aborts P (IAlgo.reverse first last) := by
  refine Aborts.fact h_first.any.ne fun e_first => ?_
  refine Aborts.fact h_last.ne fun e_last => ?_
  unfold IAlgo.reverse
  rw [if_neg (by simp [e_first, e_last])]
  refuse

/-- `algo_reverse_copy` -/
theorem C75_reverse_copy_partial (h_dFirst : OfTree P dFirst) (h_first : OfAny P first) (h_last : OfAny P last) (h_o : AnyOut P o) : Aborts P (IAlgo.reverseCopy low first last dFirst o) := by
  refine Aborts.fact h_dFirst.any.ne fun e_dFirst => ?_
  refine Aborts.fact h_first.ne fun e_first => ?_
  refine Aborts.fact h_last.ne fun e_last => ?_
  unfold IAlgo.reverseCopy
  rw [if_neg (by simp [e_dFirst, e_first, e_last])]
  refuse

/-- `algo_rotate` -/
theorem C75_rotate_partial (h_first : OfTree P first) (h_nFirst : OfAny P nFirst) (h_last : OfAny P last) (h_o : AnyOut P o) : Aborts P (IAlgo.rotate low first nFirst last o) := by
  refine Aborts.fact h_first.any.ne fun e_first => ?_
  refine Aborts.fact h_nFirst.ne fun e_nFirst => ?_
  refine Aborts.fact h_last.ne fun e_last => ?_
  unfold IAlgo.rotate
  rw [if_neg (by simp [e_first, e_nFirst, e_last])]
  refuse

/-- `algo_rotate_copy` -/
theorem C75_rotate_copy_partial (h_dFirst : OfTree P dFirst) (h_first : OfAny P first) (h_nFirst : OfAny P nFirst) (h_last : OfAny P last) (h_o : AnyOut P o) : Aborts P (IAlgo.rotateCopy low first nFirst last dFirst o) := by
  refine Aborts.fact h_dFirst.any.ne fun e_dFirst => ?_
  refine Aborts.fact h_first.ne fun e_first => ?_
  refine Aborts.fact h_nFirst.ne fun e_nFirst => ?_
  refine Aborts.fact h_last.ne fun e_last => ?_
  unfold IAlgo.rotateCopy
  rw [if_neg (by simp [e_dFirst, e_first, e_nFirst, e_last])]
  refuse

/-- `algo_random_shuffle_by` -/
theorem C75_random_shuffle_partial (rr : Nat → Nat) (h_first : OfTree P first) (h_last : OfAny P last) : Aborts P (IAlgo.shuffle Z first last rr) := by
  refine Aborts.fact h_first.any.ne fun e_first => ?_
  refine Aborts.fact h_last.ne fun e_last => ?_
  unfold IAlgo.shuffle
  rw [if_neg (by simp [e_first, e_last])]
  refuse

/-- `algo_unique_by` -/
theorem C75_unique_partial (pred : V → V → Bool) (h_first : OfTree P first) (h_last : OfAny P last) (h_o : AnyOut P o) : Aborts P (IAlgo.unique low first last o pred) := by
  refine Aborts.fact h_first.any.ne fun e_first => ?_
  refine Aborts.fact h_last.ne fun e_last => ?_
  unfold IAlgo.unique
  rw [if_neg (by simp [e_first, e_last])]
  refuse

/-- `algo_unique_copy_by` -/
theorem C75_unique_copy_partial (pred : V → V → Bool) (h_dFirst : OfTree P dFirst) (h_first : OfAny P first) (h_last : OfAny P last) (h_o : AnyOut P o) (n_o : o.isNull = false) : Aborts P (IAlgo.uniqueCopy low first last dFirst o pred) := by
  refine Aborts.fact h_dFirst.any.ne fun e_dFirst => ?_
  refine Aborts.fact h_first.ne fun e_first => ?_
  refine Aborts.fact h_last.ne fun e_last => ?_
  unfold IAlgo.uniqueCopy
  rw [if_neg (by simp [e_dFirst, e_first, e_last, n_o])]
  refuse

/-- `algo_partition` -/
theorem C75_partition_partial (pred : V → Bool) (h_first : OfTree P first) (h_last : OfAny P last) (h_o : AnyOut P o) : Aborts P (IAlgo.partition first last o pred) := by
  refine Aborts.fact h_first.any.ne fun e_first => ?_
  refine Aborts.fact h_last.ne fun e_last => ?_
  unfold IAlgo.partition
  rw [if_neg (by simp [e_first, e_last])]
  refuse

/-- `algo_partition_copy` -/
theorem C75_partition_copy_partial (pred : V → Bool) (h_dFirst : OfTree P dFirst) (h_first : OfAny P first) (h_last : OfAny P last) (h_nFirst : OfAny P nFirst) (h_o : AnyOut P o) (h_o2 : AnyOut P o2) : Aborts P (IAlgo.partitionCopy first last dFirst nFirst o o2 pred) := by
  refine Aborts.fact h_dFirst.any.ne fun e_dFirst => ?_
  refine Aborts.fact h_first.ne fun e_first => ?_
  refine Aborts.fact h_last.ne fun e_last => ?_
  refine Aborts.fact h_nFirst.ne fun e_nFirst => ?_
  unfold IAlgo.partitionCopy
  rw [if_neg (by simp [e_dFirst, e_first, e_last, e_nFirst])]
  refuse

/-- `algo_partition_copy`, the second destination -/
theorem C75_partition_copy2_partial (pred : V → Bool) (h_nFirst : OfTree P nFirst) (h_first : OfAny P first) (h_last : OfAny P last) (h_dFirst : OfAny P dFirst) (h_o : AnyOut P o) (h_o2 : AnyOut P o2) : Aborts P (IAlgo.partitionCopy first last dFirst nFirst o o2 pred) := by
  refine Aborts.fact h_nFirst.any.ne fun e_nFirst => ?_
  refine Aborts.fact h_first.ne fun e_first => ?_
  refine Aborts.fact h_last.ne fun e_last => ?_
  refine Aborts.fact h_dFirst.ne fun e_dFirst => ?_
  unfold IAlgo.partitionCopy
  rw [if_neg (by simp [e_nFirst, e_first, e_last, e_dFirst])]
  refuse

/-- `algo_merge_by` -/
theorem C75_merge_partial (comp : V → V → Bool) (h_dFirst : OfTree P dFirst) (h_first : OfAny P first) (h_last : OfAny P last) (h_first2 : OfAny P first2) (h_last2 : OfAny P last2) (h_o : AnyOut P o) : Aborts P (IAlgo.merge low first last first2 last2 dFirst o comp) := by
  refine Aborts.fact h_dFirst.any.ne fun e_dFirst => ?_
  refine Aborts.fact h_first.ne fun e_first => ?_
  refine Aborts.fact h_last.ne fun e_last => ?_
  refine Aborts.fact h_first2.ne fun e_first2 => ?_
  refine Aborts.fact h_last2.ne fun e_last2 => ?_
  unfold IAlgo.merge
  rw [if_neg (by simp [e_dFirst, e_first, e_last, e_first2, e_last2])]
  refuse

/-- `algo_set_union_by` -/
theorem C75_set_union_partial (comp : V → V → Bool) (h_dFirst : OfTree P dFirst) (h_first : OfAny P first) (h_last : OfAny P last) (h_first2 : OfAny P first2) (h_last2 : OfAny P last2) (h_o : AnyOut P o) : Aborts P (IAlgo.setUnion low first last first2 last2 dFirst o comp) := by
  refine Aborts.fact h_dFirst.any.ne fun e_dFirst => ?_
  refine Aborts.fact h_first.ne fun e_first => ?_
  refine Aborts.fact h_last.ne fun e_last => ?_
  refine Aborts.fact h_first2.ne fun e_first2 => ?_
  refine Aborts.fact h_last2.ne fun e_last2 => ?_
  unfold IAlgo.setUnion
  rw [if_neg (by simp [e_dFirst, e_first, e_last, e_first2, e_last2])]
  refuse

/-- `algo_set_intersection_by` -/
theorem C75_set_intersection_partial (comp : V → V → Bool) (h_dFirst : OfTree P dFirst) (h_first : OfAny P first) (h_last : OfAny P last) (h_first2 : OfAny P first2) (h_last2 : OfAny P last2) (h_o : AnyOut P o) : Aborts P (IAlgo.setIntersection first last first2 last2 dFirst o comp) := by
  refine Aborts.fact h_dFirst.any.ne fun e_dFirst => ?_
  refine Aborts.fact h_first.ne fun e_first => ?_
  refine Aborts.fact h_last.ne fun e_last => ?_
  refine Aborts.fact h_first2.ne fun e_first2 => ?_
  refine Aborts.fact h_last2.ne fun e_last2 => ?_
  unfold IAlgo.setIntersection
  rw [if_neg (by simp [e_dFirst, e_first, e_last, e_first2, e_last2])]
  refuse

/-- `algo_set_difference_by` -/
theorem C75_set_difference_partial (comp : V → V → Bool) (h_dFirst : OfTree P dFirst) (h_first : OfAny P first) (h_last : OfAny P last) (h_first2 : OfAny P first2) (h_last2 : OfAny P last2) (h_o : AnyOut P o) : Aborts P (IAlgo.setDifference low first last first2 last2 dFirst o comp) := by
  refine Aborts.fact h_dFirst.any.ne fun e_dFirst => ?_
  refine Aborts.fact h_first.ne fun e_first => ?_
  refine Aborts.fact h_last.ne fun e_last => ?_
  refine Aborts.fact h_first2.ne fun e_first2 => ?_
  refine Aborts.fact h_last2.ne fun e_last2 => ?_
  unfold IAlgo.setDifference
  rw [if_neg (by simp [e_dFirst, e_first, e_last, e_first2, e_last2])]
  refuse

/-- `algo_set_symmetric_difference_by` -/
theorem C75_set_symmetric_difference_partial (comp : V → V → Bool) (h_dFirst : OfTree P dFirst) (h_first : OfAny P first) (h_last : OfAny P last) (h_first2 : OfAny P first2) (h_last2 : OfAny P last2) (h_o : AnyOut P o) : Aborts P (IAlgo.setSymDifference low first last first2 last2 dFirst o comp) := by
  refine Aborts.fact h_dFirst.any.ne fun e_dFirst => ?_
  refine Aborts.fact h_first.ne fun e_first => ?_
  refine Aborts.fact h_last.ne fun e_last => ?_
  refine Aborts.fact h_first2.ne fun e_first2 => ?_
  refine Aborts.fact h_last2.ne fun e_last2 => ?_
  unfold IAlgo.setSymDifference
  rw [if_neg (by simp [e_dFirst, e_first, e_last, e_first2, e_last2])]
  refuse

/-- `algo_partial_sort_by` -/
theorem C75_partial_sort_partial (comp : V → V → Bool) (h_first : OfTree P first) (h_nFirst : OfAny P nFirst) (h_last : OfAny P last) : Aborts P (IAlgo.partialSort Z first nFirst last comp) := by
  refine Aborts.fact h_first.any.ne fun e_first => ?_
  refine Aborts.fact h_nFirst.ne fun e_nFirst => ?_
  refine Aborts.fact h_last.ne fun e_last => ?_
  unfold IAlgo.partialSort
  rw [if_neg (by simp [e_first, e_nFirst, e_last])]
  refuse

/-- `algo_partial_sort_copy_by` -/
theorem C75_partial_sort_copy_partial (comp : V → V → Bool) (h_dFirst : OfTree P dFirst) (h_first : OfAny P first) (h_last : OfAny P last) (h_last2 : OfAny P last2) (h_o : AnyOut P o) : Aborts P (IAlgo.partialSortCopy Z first last dFirst last2 o comp) := by
  refine Aborts.fact h_dFirst.any.ne fun e_dFirst => ?_
  refine Aborts.fact h_first.ne fun e_first => ?_
  refine Aborts.fact h_last.ne fun e_last => ?_
  refine Aborts.fact h_last2.ne fun e_last2 => ?_
  unfold IAlgo.partialSortCopy
  rw [if_neg (by simp [e_dFirst, e_first, e_last, e_last2])]
  refuse

/-- `algo_sort_by` -/
theorem C75_sort_partial (comp : V → V → Bool) (h_first : OfTree P first) (h_last : OfAny P last) : Aborts P (IAlgo.sort Z low first last comp) := by
  refine Aborts.fact h_first.any.ne fun e_first => ?_
  refine Aborts.fact h_last.ne fun e_last => ?_
  unfold IAlgo.sort
  rw [if_neg (by simp [e_first, e_last])]
  refuse

/-- `algo_push_heap_by` -/
theorem C75_push_heap_partial (comp : V → V → Bool) (h_first : OfTree P first) (h_last : OfAny P last) : Aborts P (IAlgo.pushHeap Z first last comp) := by
  refine Aborts.fact h_first.any.ne fun e_first => ?_
  refine Aborts.fact h_last.ne fun e_last => ?_
  unfold IAlgo.pushHeap
  rw [if_neg (by simp [e_first, e_last])]
  refuse

/-- `algo_pop_heap_by` -/
theorem C75_pop_heap_partial (comp : V → V → Bool) (h_first : OfTree P first) (h_last : OfAny P last) : Aborts P (IAlgo.popHeap Z first last comp) := by
  refine Aborts.fact h_first.any.ne fun e_first => ?_
  refine Aborts.fact h_last.ne fun e_last => ?_
  unfold IAlgo.popHeap
  rw [if_neg (by simp [e_first, e_last])]
  refuse

/-- `algo_make_heap_by` -/
theorem C75_make_heap_partial (comp : V → V → Bool) (h_first : OfTree P first) (h_last : OfAny P last) : Aborts P (IAlgo.makeHeap Z first last comp) := by
  refine Aborts.fact h_first.any.ne fun e_first => ?_
  refine Aborts.fact h_last.ne fun e_last => ?_
  unfold IAlgo.makeHeap
  rw [if_neg (by simp [e_first, e_last])]
  refuse

/-- `algo_sort_heap_by` -/
theorem C75_sort_heap_partial (comp : V → V → Bool) (h_first : OfTree P first) (h_last : OfAny P last) : Aborts P (IAlgo.sortHeap Z first last comp) := by
  refine Aborts.fact h_first.any.ne fun e_first => ?_
  refine Aborts.fact h_last.ne fun e_last => ?_
  unfold IAlgo.sortHeap
  rw [if_neg (by simp [e_first, e_last])]
  refuse


/-- `algo_remove_copy_if` does not check: it overwrites the elements of a set or map (`es`, of which `us` are the values after the call).  Everything else is as for any other container (C63). -/
theorem C75_remove_copy_if_violated {C : List V → HProp V} {S : HProp V} {x2 y2 a h : Nat} {g : Tree.Cfg} {es : List (Elem V)} {vs : List V} (pred : V → Bool) (hc : View Z C r S) (hty : g.vt ≠ 0) (hl : vs.length = r.len)
    (hle : vs.length ≤ es.length) (hlow : ∀ q, q ≠ 0 → 2 ≤ low q) :
    Triple True (C vs ∗ isTree a h g es ∗ rawIt x ∗ rawIt y ∗ rawIt x2 ∗ rawIt y2) (whole r x y (whole (treeSrc a h g es) x2 y2 (IAlgo.removeCopyIf low x y x2 (.var (0, 0)) pred)))
      (fun _ => ∃ₛ fs, ⌜fs.map Elem.node = es.map Elem.node ∧ vals fs = (vs.filter fun v => !pred v) ++ (vals es).drop (vs.filter fun v => !pred v).length⌝ ∗
        C vs ∗ isTree a h g fs ∗ It r x 0 ∗ It r y r.len ∗ It (treeSrc a h g es) x2 0 ∗ It (treeSrc a h g es) y2 es.length) := by
  have hlen : (vals es).length = es.length := by simp [vals]
  have v2 := tree_view (Z := Z) (a := a) (h := h) (es := es) hty
  have hf : (vs.filter fun v => !pred v).length ≤ vs.length := List.length_filter_le ..
  rw [hc.eq vs hl, tree_parts]
  refine Triple.pre (P' := rawIt x ∗ rawIt y ∗ S ∗ (treeS a h g es ∗ rawIt x2 ∗ rawIt y2 ∗ seg r.ref 0 vs ∗ seg (boxAt es) 0 (vals es))) (by cancel) ?_
  refine whole_spec hc.ok ?_
  refine Triple.pre (P' := rawIt x2 ∗ rawIt y2 ∗ treeS a h g es ∗ (S ∗ It r x 0 ∗ It r y r.len ∗ seg r.ref 0 vs ∗ seg (boxAt es) 0 (vals es))) (by cancel) ?_
  refine whole_spec v2.ok ?_
  have o1 := hc.ok.frame (G := treeS a h g es)
  have o2 := v2.ok.frame (G := S)
  rw [sep_comm] at o2
  refine Triple.pre (P' := seg r.ref 0 vs ∗ seg (boxAt es) 0 (vals es) ∗ (It r x 0 ∗ It r y r.len ∗ (It (treeSrc a h g es) x2 0 ∗ It (treeSrc a h g es) y2 es.length)) ∗ (S ∗ treeS a h g es)) (by cancel) ?_
  have hs := spans_whole (x := x) (y := y) (G := It (treeSrc a h g es) x2 0 ∗ It (treeSrc a h g es) y2 es.length) o1 hl
  have hA : At (It r x 0 ∗ It r y r.len ∗ (It (treeSrc a h g es) x2 0 ∗ It (treeSrc a h g es) y2 es.length)) (treeSrc a h g es) x2 0 := ⟨_, show _ ⊢ₛ It (treeSrc a h g es) x2 0 ∗ _ by cancel⟩
  have key := C63_remove_copy_if (o := .var (0, 0)) (low := low) (us := vals es) pred hs seg_rng ⟨o2, by show 0 + _ ≤ es.length; omega, hA⟩ (by omega) hlow .null
  refine Triple.post key fun q => ?_
  refine ent_pure_left fun _ => ?_
  have hll : (over (vals es) (vs.filter fun v => !pred v)).length = es.length := by
    unfold over
    simp; omega
  refine ent_ex_right (setVals es (over (vals es) (vs.filter fun v => !pred v))) (ent_pure_right ⟨setVals_node hll, ?_⟩ ?_)
  · rw [vals_setVals hll]; rfl
  · rw [tree_seg hll]
    cancel

/-- In a concrete memory: copying the vector 3, 1, 2 with `algo_remove_copy_if` over the set 1, 2, 3 leaves a set whose elements are not in order; the same with `algo_copy` is rejected. -/
example : ∃ (m m' : Mem Nat) (a h v b x y x2 y2 : Addr) (es fs : List (Elem Nat)) (n : Nat × Nat) (F : HProp Nat), KSorted Tree.natEnv Tree.natCfg es ∧ (isTree a h Tree.natCfg es ∗ F) m.cells ∧
    whole (vecSrc v b 1 3) x y (whole (treeSrc a h Tree.natCfg es) x2 y2 (IAlgo.removeCopyIf (fun _ => 8) x y x2 (.var (0, 0)) fun _ => false)) m = some (.ok (n, m')) ∧
    (∃ F', (isTree a h Tree.natCfg fs ∗ F') m'.cells) ∧ ¬ KSorted Tree.natEnv Tree.natCfg fs ∧
    whole (vecSrc v b 1 3) x y (whole (treeSrc a h Tree.natCfg es) x2 y2 (IAlgo.copy (fun _ => 8) x y x2 (.var (0, 0)))) m = some (.error .abort) := by
  obtain ⟨m, a, h, v, b, x, y, x2, y2, es, F, ho, hv, hl, hs, hm⟩ := exists_set_vec
  have hvw := vec_view (Z := fun _ => 4) (nf := True) (t := Vec.intTy) (ty := 1) (v := v) (b := b) (cap := 3) (n := 3) (by simp) (by simp) (by simp)
  have ht := C75_remove_copy_if_violated (low := fun _ => 8) (a := a) (h := h) (g := Tree.natCfg) (es := es) (x := x) (y := y) (x2 := x2) (y2 := y2) (vs := [3, 1, 2]) (fun _ => false) hvw
    (by simp [Tree.natCfg]) rfl (by rw [hl]; decide) (by simp)
  obtain ⟨n, m', h1, _, hm'⟩ := ht.run (F := F) (s := m) (fun _ => ho) ((show _ ⊢ₛ _ by cancel) _ hm)
  rw [hex_sep] at hm'
  obtain ⟨fs, hm'⟩ := hm'
  rw [sep_assoc, hpure_sep_apply] at hm'
  refine ⟨m, m', a, h, v, b, x, y, x2, y2, es, fs, n, _, hs, hm, h1, ⟨_, (show _ ⊢ₛ isTree a h Tree.natCfg fs ∗ _ by cancel) _ hm'.2⟩, ?_, ?_⟩
  · intro hk
    have := vlt_sorted hk
    rw [hm'.1.2, hv] at this
    simp [Sorted, vlt, klt, Tree.natEnv] at this
  · have e : ∀ {α : Type} (r : Src Nat) (x y : Nat) (k : M Nat α), whole r x y k = whole r x y (pure ()) >>= fun _ => k := by
      intro α r x y k
      unfold whole
      simp only [bind_assoc, pure_bind]
    have v2 := tree_view (Z := fun _ => 4) (a := a) (h := h) (es := es) (g := Tree.natCfg) (by simp [Tree.natCfg])
    rw [hvw.eq [3, 1, 2] rfl, tree_parts] at hm
    have t1 : ∀ {r : Src Nat} {S : HProp Nat} {x y : Nat}, r.Ok True (fun _ => 4) S → Triple True (rawIt x ∗ rawIt y ∗ S) (whole r x y (pure ())) (fun _ => It r x 0 ∗ It r y r.len ∗ S) := by
      intro r S x y hr
      have := whole_spec (m := pure ()) (x := x) (y := y) (F := emp) (Q := fun _ : Unit => It r x 0 ∗ It r y r.len ∗ S ∗ emp) hr (Triple.ret (ent_refl _))
      simpa only [sep_emp] using this
    obtain ⟨_, m1, e1, o1, hm1⟩ := (t1 (x := x) (y := y) hvw.ok).run (F := _) (s := m) (fun _ => ho) ((show _ ⊢ₛ _ by cancel) _ hm)
    obtain ⟨_, m2, e2, _, hm2⟩ := (t1 (x := x2) (y := y2) v2.ok).run (F := _) (s := m1) (fun _ => by rw [o1]; exact ho) ((show _ ⊢ₛ _ by cancel) _ hm1)
    rw [e, bind_ok e1, e, bind_ok e2]
    exact C75_copy_partial (P := _) ⟨treeSrc a h Tree.natCfg es, 0, ⟨_, show _ ⊢ₛ It _ x2 0 ∗ _ by cancel⟩, .inl rfl⟩ ⟨vecSrc v b 1 3, 0, ⟨_, show _ ⊢ₛ It _ x 0 ∗ _ by cancel⟩⟩
      ⟨vecSrc v b 1 3, 3, ⟨_, show _ ⊢ₛ It _ y (vecSrc v b 1 3).len ∗ _ by cancel⟩⟩ ⟨(0, 0), rfl, .inl rfl⟩ m2 hm2

end CC.IAlgo
