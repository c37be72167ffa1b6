head='''import Verif.Props.CResult
import Verif.Props.CIterTree
import Verif.IAlgo.Heap
/-!
# Property C75: algorithms do not write through the iterators of sets and maps

The elements of a set or map must not be overwritten (their order would be lost), so its iterators are not mutable (`C_ITER_MUTABLE`), and an algorithm that writes to a range must reject them: the call ends
in a failed assertion before anything is written.  All do except `algo_remove_copy_if`.
-/
namespace CC.IAlgo
open CC CC.Tac CC.Iter CC.Algo
open CC.CList (Elem vals)
open CC.Tree (isTree klt ek KSorted)
variable {V α β : Type} {Z : Nat → Nat} {P : HProp V} {r r1 r2 r3 r4 : Src V} {first last dFirst nFirst first2 last2 x y i i1 i2 i3 i4 j n : Nat} {value new : Loc} {low : Nat → Nat} {o o2 : IAlgo.Out}

/-- an iterator object of a set or map -/
def OfTree (P : HProp V) (x : Nat) : Prop := ∃ (r : Src V) (i : Nat), At P r x i ∧ (r.kind = .tree ∨ r.kind = .treeR)
/-- an iterator object of any container -/
def OfAny (P : HProp V) (x : Nat) : Prop := ∃ (r : Src V) (i : Nat), At P r x i
/-- an argument for a result: NULL, or the address of a variable that holds NULL or (the address of) an iterator object -/
def AnyOut (P : HProp V) (o : IAlgo.Out) : Prop := ∃ l : Loc, o = .var l ∧ (l.1 = 0 ∨ ∃ (q : Nat) (R : HProp V), (P ⊢ₛ pts l (.num q) ∗ R) ∧ (q = 0 ∨ OfAny P q))

theorem OfTree.any (h : OfTree P x) : OfAny P x := by
  obtain ⟨r, i, h, _⟩ := h
  exact ⟨r, i, h⟩

theorem Aborts.fact {p : Prop} {m : M V α} (hp : ∀ h, P h → p) (hk : p → Aborts P m) : Aborts P m := fun s hs => hk (hp _ hs) s hs

/-- a check: it fails or changes nothing -/
def Check (P : HProp V) (m : M V Unit) : Prop := ∀ s : Mem V, P s.cells → m s = some (.error .abort) ∨ ∃ s' : Mem V, m s = some (.ok ((), s')) ∧ P s'.cells

theorem Check.pure : Check P (pure ()) := fun s hs => .inr ⟨s, rfl, hs⟩

theorem Check.cassert {b : Bool} : Check P (cassert b) := by
  intro s hs
  cases b with
  | true => exact .inr ⟨s, rfl, hs⟩
  | false => exact .inl rfl

theorem Check.bind {m : M V Unit} {f : Unit → M V α} (hm : Check P m) (hf : Aborts P (f ())) : Aborts P (m >>= f) := by
  intro s hs
  rcases hm s hs with h | ⟨s', h, hs'⟩
  · exact bind_error h
  · rw [bind_ok h]; exact hf s' hs'

theorem read_run {l : Loc} {k : Nat} (h : ReadsN P l k) {s : Mem V} (hs : P s.cells) : ∃ s', ldN l s = some (.ok (k, s')) ∧ P s'.cells := by
  have ht : Triple False P (ldN l) (fun a => ⌜a = k⌝ ∗ P) := by
    rw [← bind_pure (ldN l)]
    refine ldN_reads h ?_
    exact Triple.ret (ent_pure_right rfl (ent_refl _))
  obtain ⟨a, s', e1, _, e3⟩ := ht.run (F := emp) (s := s) (fun h => h.elim) (by rw [sep_emp]; exact hs)
  rw [sep_emp, hpure_sep_apply] at e3
  obtain ⟨rfl, e3⟩ := e3
  exact ⟨s', e1, e3⟩

theorem Check.read {l : Loc} {k : Nat} {f : Nat → M V Unit} (h : ReadsN P l k) (hf : Check P (f k)) : Check P (ldN l >>= f) := by
  intro s hs
  obtain ⟨s', e1, e2⟩ := read_run h hs
  rw [bind_ok e1]
  exact hf s' e2

theorem Aborts.read {l : Loc} {k : Nat} {f : Nat → M V α} (h : ReadsN P l k) (hf : Aborts P (f k)) : Aborts P (ldN l >>= f) := by
  intro s hs
  obtain ⟨s', e1, e2⟩ := read_run h hs
  rw [bind_ok e1]
  exact hf s' e2

theorem OfAny.ne (h : OfAny P x) : ∀ m, P m → x ≠ 0 := by
  obtain ⟨r, i, R, h⟩ := h
  exact fun m hm => isIt_ne (h m hm)

theorem OfAny.atLeast {c : Nat} (h : OfAny P x) : Check P (IAlgo.atLeast x c) := by
  intro s hs
  have hx := h.ne _ hs
  obtain ⟨r, i, R, h⟩ := h
  refine (show Check P (IAlgo.atLeast x c) from ?_) s hs
  unfold IAlgo.atLeast
  rw [if_neg hx]
  exact Check.read (ItAt.of_ent hx h).2.1 Check.cassert

theorem OfAny.exactly {c : Nat} (h : OfAny P x) : Check P (IAlgo.exactly x c) := by
  intro s hs
  have hx := h.ne _ hs
  obtain ⟨r, i, R, h⟩ := h
  refine (show Check P (IAlgo.exactly x c) from ?_) s hs
  unfold IAlgo.exactly
  rw [if_neg hx]
  exact Check.read (ItAt.of_ent hx h).2.1 Check.cassert

theorem OfAny.isMutable (h : OfAny P x) : Check P (IAlgo.isMutable x) := by
  intro s hs
  have hx := h.ne _ hs
  obtain ⟨r, i, R, h⟩ := h
  refine (show Check P (IAlgo.isMutable x) from ?_) s hs
  unfold IAlgo.isMutable
  rw [if_neg hx]
  exact Check.read (ItAt.of_ent hx h).2.2.1 Check.cassert

theorem AnyOut.lowCheck {c : Nat} (h : AnyOut P o) : Check P (o.lowCheck low c) := by
  obtain ⟨l, rfl, h⟩ := h
  unfold Out.lowCheck
  dsimp only
  split
  · exact Check.pure
  · rcases h with h | ⟨q, R, h, _⟩
    · contradiction
    · refine Check.read (ReadsN.of_ent h) ?_
      split
      · exact Check.pure
      · exact Check.cassert

theorem AnyOut.atLeast {c : Nat} (h : AnyOut P o) : Check P (o.atLeast c) := by
  obtain ⟨l, rfl, h⟩ := h
  unfold Out.atLeast
  dsimp only
  split
  · exact Check.pure
  · rcases h with h | ⟨q, R, h, hq⟩
    · contradiction
    · refine Check.read (ReadsN.of_ent h) ?_
      split
      · exact Check.pure
      · rcases hq with hq | hq
        · contradiction
        · exact hq.atLeast

theorem AnyOut.exactly {c : Nat} (h : AnyOut P o) : Check P (o.exactly c) := by
  obtain ⟨l, rfl, h⟩ := h
  unfold Out.exactly
  dsimp only
  split
  · exact Check.pure
  · rcases h with h | ⟨q, R, h, hq⟩
    · contradiction
    · refine Check.read (ReadsN.of_ent h) ?_
      split
      · exact Check.pure
      · rcases hq with hq | hq
        · contradiction
        · exact hq.exactly

/-- `assert(C_ITER_MUTABLE(x))` fails -/
theorem OfTree.stop (h : OfTree P x) {f : Unit → M V α} : Aborts P (IAlgo.isMutable x >>= f) := by
  refine Aborts.fact h.any.ne fun hx => ?_
  obtain ⟨r, i, ⟨R, h⟩, hk⟩ := h
  unfold IAlgo.isMutable
  rw [if_neg hx, bind_assoc]
  refine Aborts.read (ItAt.of_ent hx h).2.2.1 ?_
  intro s hs
  have : decide (r.kind.type < 7) = false := by rcases hk with hk | hk <;> rw [hk] <;> rfl
  rw [this]
  rfl

/-- `assert(C_ITER_EXACT(x, C_ITER_CATE_RANDOM))` fails -/
theorem OfTree.stop4 (h : OfTree P x) {f : Unit → M V α} : Aborts P (IAlgo.exactly x 4 >>= f) := by
  refine Aborts.fact h.any.ne fun hx => ?_
  obtain ⟨r, i, ⟨R, h⟩, hk⟩ := h
  unfold IAlgo.exactly
  rw [if_neg hx, bind_assoc]
  refine Aborts.read (ItAt.of_ent hx h).2.1 ?_
  intro s hs
  have : decide (r.kind.cate = 4) = false := by rcases hk with hk | hk <;> rw [hk] <;> rfl
  rw [this]
  rfl

/-- goes through the checks of an algorithm -/
macro "refuse" : tactic => `(tactic| repeat (first
  | exact OfTree.stop (by assumption)
  | exact OfTree.stop4 (by assumption)
  | refine Check.bind (OfAny.atLeast (by first | assumption | exact OfTree.any (by assumption))) ?_
  | refine Check.bind (OfAny.exactly (by first | assumption | exact OfTree.any (by assumption))) ?_
  | refine Check.bind (OfAny.isMutable (by first | assumption | exact OfTree.any (by assumption))) ?_
  | refine Check.bind (AnyOut.lowCheck (by assumption)) ?_
  | refine Check.bind (AnyOut.atLeast (by assumption)) ?_
  | refine Check.bind (AnyOut.exactly (by assumption)) ?_))

'''
# name, doc, def, explicit extra binders, args string, trees, anys, outs, locs, extra hyp
D=[
('copy','algo_copy','','IAlgo.copy low first last dFirst o',['dFirst'],['first','last'],['o'],[]),
('copy_if','algo_copy_if','(pred : V → Bool)','IAlgo.copyIf low first last dFirst o pred',['dFirst'],['first','last'],['o'],[]),
('copy_backward','algo_copy_backward','','IAlgo.copyBackward low first last dFirst o',['dFirst'],['first','last'],['o'],[]),
('fill','algo_fill','','IAlgo.fill first last value',['first'],['last'],[],['value']),
('fill_n','algo_fill_n','','IAlgo.fillN low first n value o',['first'],[],['o'],['value']),
('transform','algo_transform','(D : Nat → V) (op : V → V)','IAlgo.transform D first last dFirst op',['dFirst'],['first','last'],[],[]),
('generate','algo_generate','(gen : Nat → V)','IAlgo.generate first last gen',['first'],['last'],[],[]),
('generate_n','algo_generate_n','(gen : Nat → V)','IAlgo.generateN low first n gen o',['first'],[],['o'],[]),
('remove','algo_remove','(E : Nat → V → V → Bool)','IAlgo.remove low E first last value o',['first'],['last'],['o'],['value']),
('remove_if','algo_remove_if','(pred : V → Bool)','IAlgo.removeIf low first last o pred',['first'],['last'],['o'],[]),
('remove_copy','algo_remove_copy','(E : Nat → V → V → Bool)','IAlgo.removeCopy low E first last dFirst value o',['dFirst'],['first','last'],['o'],['value']),
('replace','algo_replace','(E : Nat → V → V → Bool)','IAlgo.replace E first last value new',['first'],['last'],[],['value','new']),
('replace_if','algo_replace_if','(pred : V → Bool)','IAlgo.replaceIf first last pred new',['first'],['last'],[],['new']),
('replace_copy','algo_replace_copy','(E : Nat → V → V → Bool)','IAlgo.replaceCopy low E first last dFirst value new o',['dFirst'],['first','last'],['o'],['value','new']),
('replace_copy_if','algo_replace_copy_if','(pred : V → Bool)','IAlgo.replaceCopyIf low first last dFirst pred new o',['dFirst'],['first','last'],['o'],['new']),
('swap_range','algo_swap_range','','IAlgo.swapRange first last first2',['first'],['last','first2'],[],[]),
('swap_range2','algo_swap_range, the second range','','IAlgo.swapRange first last first2',['first2'],['first','last'],[],[]),
('iter_swap','algo_iter_swap','','IAlgo.iterSwap x y',['x'],['y'],[],[]),
('iter_swap2','algo_iter_swap, the second iterator','','IAlgo.iterSwap x y',['y'],['x'],[],[]),
('reverse','algo_reverse','','IAlgo.reverse first last',['first'],['last'],[],[]),
('reverse_copy','algo_reverse_copy','','IAlgo.reverseCopy low first last dFirst o',['dFirst'],['first','last'],['o'],[]),
('rotate','algo_rotate','','IAlgo.rotate low first nFirst last o',['first'],['nFirst','last'],['o'],[]),
('rotate_copy','algo_rotate_copy','','IAlgo.rotateCopy low first nFirst last dFirst o',['dFirst'],['first','nFirst','last'],['o'],[]),
('random_shuffle','algo_random_shuffle_by','(rr : Nat → Nat)','IAlgo.shuffle Z first last rr',['first'],['last'],[],[]),
('unique','algo_unique_by','(pred : V → V → Bool)','IAlgo.unique low first last o pred',['first'],['last'],['o'],[]),
('unique_copy','algo_unique_copy_by','(pred : V → V → Bool)','IAlgo.uniqueCopy low first last dFirst o pred',['dFirst'],['first','last'],['o'],['@o']),
('partition','algo_partition','(pred : V → Bool)','IAlgo.partition first last o pred',['first'],['last'],['o'],[]),
('partition_copy','algo_partition_copy','(pred : V → Bool)','IAlgo.partitionCopy first last dFirst nFirst o o2 pred',['dFirst'],['first','last','nFirst'],['o','o2'],[]),
('partition_copy2','algo_partition_copy, the second destination','(pred : V → Bool)','IAlgo.partitionCopy first last dFirst nFirst o o2 pred',['nFirst'],['first','last','dFirst'],['o','o2'],[]),
]
for n,f,l in [('merge','merge','low '),('set_union','setUnion','low '),('set_intersection','setIntersection',''),('set_difference','setDifference','low '),('set_symmetric_difference','setSymDifference','low ')]:
    D.append((n,'algo_%s_by'%n,'(comp : V → V → Bool)','IAlgo.%s %sfirst last first2 last2 dFirst o comp'%(f,l),['dFirst'],['first','last','first2','last2'],['o'],[]))
D+=[
('partial_sort','algo_partial_sort_by','(comp : V → V → Bool)','IAlgo.partialSort Z first nFirst last comp',['first'],['nFirst','last'],[],[]),
('partial_sort_copy','algo_partial_sort_copy_by','(comp : V → V → Bool)','IAlgo.partialSortCopy Z first last dFirst last2 o comp',['dFirst'],['first','last','last2'],['o'],[]),
('sort','algo_sort_by','(comp : V → V → Bool)','IAlgo.sort Z low first last comp',['first'],['last'],[],[]),
('push_heap','algo_push_heap_by','(comp : V → V → Bool)','IAlgo.pushHeap Z first last comp',['first'],['last'],[],[]),
('pop_heap','algo_pop_heap_by','(comp : V → V → Bool)','IAlgo.popHeap Z first last comp',['first'],['last'],[],[]),
('make_heap','algo_make_heap_by','(comp : V → V → Bool)','IAlgo.makeHeap Z first last comp',['first'],['last'],[],[]),
('sort_heap','algo_sort_heap_by','(comp : V → V → Bool)','IAlgo.sortHeap Z first last comp',['first'],['last'],[],[]),
]
out=head
for n,doc,b,prog,trees,anys,outs,locs in D:
    hs=''.join(' (h_%s : OfTree P %s)'%(t,t) for t in trees)+''.join(' (h_%s : OfAny P %s)'%(t,t) for t in anys)+''.join(' (h_%s : AnyOut P %s)'%(t,t) for t in outs)
    hs+=''.join((' (n_o : o.isNull = false)' if t=='@o' else ' (n_%s : %s.1 ≠ 0)'%(t,t)) for t in locs)
    d='/-- `%s` -/'%doc if ',' not in doc else '/-- `%s`%s -/'%(doc.split(',')[0],','+doc.split(',')[1])
    fn=prog.split()[0]
    out+='%s\ntheorem C75_%s_partial%s%s : Aborts P (%s) := by\n'%(d,n,(' '+b) if b else '',hs,prog)
    for t in trees: out+='  refine Aborts.fact h_%s.any.ne fun e_%s => ?_\n'%(t,t)
    for t in anys: out+='  refine Aborts.fact h_%s.ne fun e_%s => ?_\n'%(t,t)
    es=['e_'+t for t in trees+anys]+['n_'+t.strip('@') for t in locs]
    out+='  unfold %s\n  rw [if_neg (by simp [%s])]\n  refuse\n\n'%(fn,', '.join(es))
print(out)
