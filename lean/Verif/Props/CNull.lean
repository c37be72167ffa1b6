import Verif.List.Model
import Verif.SList.Model
import Verif.Vec.Model
import Verif.Deq.Model
import Verif.Adapter.Model
import Verif.Tree.Model
/-!
# C55: NULL arguments

Every function of the library that checks for NULL returns at once, with the documented neutral result and without any access to the memory
(`Harmless`); the others stop at an assertion (`Aborts`).  In no case is NULL dereferenced.  All statements range over every memory, every
allocator and every value of the other arguments.
-/
namespace CC.Props
open CC
variable {V α : Type}

/-- the call returns `r` and leaves everything as it was: no access to the memory, no allocation -/
def Harmless (m : M V α) (r : α) : Prop := ∀ s : Mem V, m s = some (.ok (r, s))

/-- the call stops at a failed assertion, before anything else happens -/
def Aborts (m : M V α) : Prop := ∀ s : Mem V, m s = some (.error .abort)

/-- the proofs below: all these functions start with their checks -/
local macro "null" : tactic => `(tactic| (
  (repeat' apply And.intro) <;> (first
    | (intro s; rfl)
    | (cases ‹Option (V → V → Bool)› <;> intro s <;> rfl)
    | (intro hl s; simp only [SList.insertAfter, Tree.lowerBound, Tree.upperBound, Tree.insertUniqueValue, Tree.insertUnique, Tree.insertEqualValue, Tree.insertEqual,
        cassert, bne_iff_ne, ne_eq, hl, not_false_eq_true, ↓reduceIte]; rfl)
    | (intro hl s; cases ‹Option (V → V → Bool)› <;> simp only [SList.mergeBy, SList.spliceGuard, if_neg hl] <;> rfl)
    | (intro hl s; first | rfl | (simp only [CList.splice, CList.spliceFrom, CList.spliceRange, CList.spliceGuard, CList.mergeBy, SList.spliceGuard,
        SList.spliceAfter, SList.spliceAfterFrom, SList.spliceAfterRange, SList.mergeBy, if_neg hl]; rfl))
    | (intro s; simp only [CList.insert, CList.pushBack, CList.pushFront, CList.swap, CList.assign, CList.createFrom,
        SList.pushFront, SList.swap, SList.assign, SList.createFrom, Vec.pushBack, Vec.insert, Vec.insertN, Vec.swap, Vec.assign, Vec.createFromArray, Vec.createN,
        Deq.pushBack, Deq.pushFront, Deq.insert, Deq.insertN, Deq.swap, Deq.assign, Deq.createFrom,
        Adapter.push, Adapter.pqPush, Adapter.swap, Tree.create, Tree.swap, Tree.insertUniqueFromC, Tree.insertEqualFromC, Tree.eraseFromC, Tree.eraseKey, Tree.equalRange,
        true_or, or_true, or_self, ↓reduceIte]; rfl) | skip)))

theorem C55_list_partial (E : Types V) (l pos last ty n : Nat) (w : Loc) (j : Nat) (f : Option (V → V → Bool)) (p : V → Bool) :
    -- NULL list
    Harmless (V := V) (CList.destroy 0) () ∧ Harmless (V := V) (CList.clear 0) () ∧ Harmless (V := V) (CList.empty 0) true ∧ Harmless (V := V) (CList.size 0) 0 ∧
    Harmless (V := V) (CList.front 0) (0, 1) ∧ Harmless (V := V) (CList.back 0) (0, 1) ∧
    Harmless (CList.insert E 0 pos w) pos ∧ Harmless (V := V) (CList.erase 0 pos) pos ∧
    Harmless (CList.pushBack E 0 w) () ∧ Harmless (CList.pushFront E 0 w) () ∧
    Harmless (V := V) (CList.popBack 0) () ∧ Harmless (V := V) (CList.popFront 0) () ∧
    Harmless (CList.resizeWithValue E 0 n w) () ∧ Harmless (CList.resize E 0 n) () ∧
    Harmless (V := V) (CList.swap 0 l) () ∧ Harmless (V := V) (CList.swap l 0) () ∧
    Harmless (CList.copy E 0) 0 ∧ Harmless (CList.assign E 0 l) 0 ∧ Harmless (CList.assign E l 0) l ∧
    Harmless (V := V) (CList.mergeBy 0 l f) () ∧ Harmless (CList.merge E 0 l) () ∧
    Harmless (V := V) (CList.splice 0 pos l) () ∧ Harmless (V := V) (CList.spliceFrom 0 pos l last) () ∧
    Harmless (V := V) (CList.spliceRange 0 pos l last n) () ∧
    Harmless (CList.remove E 0 w) () ∧ Harmless (CList.removeIf 0 p) () ∧ Harmless (V := V) (CList.sortBy 0 f) () ∧ Harmless (CList.sort E 0) () ∧
    Harmless (V := V) (CList.reverse 0) () ∧ Harmless (V := V) (CList.uniqueIf 0 f) () ∧ Harmless (CList.unique E 0) () ∧
    -- NULL second list
    (l ≠ 0 → Harmless (V := V) (CList.splice l pos 0) ()) ∧ (l ≠ 0 → Harmless (V := V) (CList.mergeBy l 0 f) ()) ∧
    (l ≠ 0 → Harmless (V := V) (CList.spliceFrom l pos 0 last) ()) ∧ (l ≠ 0 → Harmless (V := V) (CList.spliceRange l pos 0 last n) ()) ∧
    -- NULL value
    Harmless (CList.insert E l pos (0, j)) pos ∧ Harmless (CList.pushBack E l (0, j)) () ∧ Harmless (CList.pushFront E l (0, j)) () ∧
    -- NULL type or array
    Harmless (V := V) (CList.create 0) 0 ∧ Harmless (CList.createFrom E 0 w n) 0 ∧ Harmless (CList.createFrom E ty (0, j) n) 0 := by
  null

/-- the remaining functions on lists check their list by an assertion -/
theorem C55_list_abort :
    Aborts (V := V) (CList.begin_ 0) ∧ Aborts (V := V) (CList.end_ 0) ∧ Aborts (V := V) (CList.rbegin 0) ∧ Aborts (V := V) (CList.rend 0) := by
  null

/-- The exception: `c_list_erase_range` neither checks nor asserts, and `c_list_erase(NULL, pos)` returns `pos`: the loop never ends. -/
theorem C55_list_erase_range_violated (pos last : Nat) (h : pos ≠ last) (s : Mem V) : CList.eraseRange (V := V) 0 pos last s = none := by
  refine CList.eraseRange.fixpoint_induct (V := V) 0 last (fun f => ∀ pos s, pos ≠ last → f pos s = none) ?_ ?_ pos s h
  · apply Lean.Order.admissible_pi
    intro x
    apply Lean.Order.admissible_pi
    intro y
    apply Lean.Order.admissible_pi
    intro hne
    refine Lean.Order.admissible_apply (β := fun _ => M V Nat) (fun _ (f : M V Nat) => f y = none) x ?_
    exact Lean.Order.admissible_apply (β := fun _ => Option (Except Fault (Nat × Mem V))) (fun _ f => f = none) y (Lean.Order.admissible_flatOrder _ rfl)
  · intro f ih pos s hne
    show (if pos ≠ last then _ else _ : M V Nat) s = none
    rw [if_pos hne]
    exact ih pos s hne

theorem C55_forward_list (E : Types V) (l pos last ty n : Nat) (w : Loc) (j : Nat) (f : Option (V → V → Bool)) (p : V → Bool) :
    Harmless (V := V) (SList.destroy 0) () ∧ Harmless (V := V) (SList.clear 0) () ∧ Harmless (V := V) (SList.empty 0) true ∧ Harmless (V := V) (SList.front 0) (0, 1) ∧
    Harmless (SList.pushFront E 0 w) () ∧ Harmless (V := V) (SList.popFront 0) () ∧
    Harmless (SList.resizeWithValue E 0 n w) () ∧ Harmless (SList.resize E 0 n) () ∧
    Harmless (V := V) (SList.swap 0 l) () ∧ Harmless (V := V) (SList.swap l 0) () ∧
    Harmless (SList.copy E 0) 0 ∧ Harmless (SList.assign E 0 l) 0 ∧ Harmless (SList.assign E l 0) l ∧
    Harmless (V := V) (SList.mergeBy 0 l f) () ∧ Harmless (SList.merge E 0 l) () ∧
    Harmless (V := V) (SList.spliceAfter 0 pos l) () ∧ Harmless (V := V) (SList.spliceAfterFrom 0 pos l last) () ∧
    Harmless (V := V) (SList.spliceAfterRange 0 pos l last n) () ∧
    Harmless (SList.remove E 0 w) () ∧ Harmless (SList.removeIf 0 p) () ∧ Harmless (V := V) (SList.sortBy 0 f) () ∧ Harmless (SList.sort E 0) () ∧
    Harmless (V := V) (SList.reverse 0) () ∧ Harmless (V := V) (SList.uniqueIf 0 f) () ∧ Harmless (SList.unique E 0) () ∧
    (l ≠ 0 → Harmless (V := V) (SList.spliceAfter l pos 0) ()) ∧ (l ≠ 0 → Harmless (V := V) (SList.mergeBy l 0 f) ()) ∧
    (l ≠ 0 → Harmless (V := V) (SList.spliceAfterFrom l pos 0 last) ()) ∧ (l ≠ 0 → Harmless (V := V) (SList.spliceAfterRange l pos 0 last n) ()) ∧
    Harmless (SList.pushFront E l (0, j)) () ∧
    Harmless (V := V) (SList.create 0) 0 ∧ Harmless (SList.createFrom E 0 w n) 0 ∧ Harmless (SList.createFrom E ty (0, j) n) 0 := by
  null

theorem C55_forward_list_abort (E : Types V) (l pos last j : Nat) (w : Loc) :
    Aborts (V := V) (SList.begin_ 0) ∧ Aborts (V := V) (SList.end_ 0) ∧ Aborts (V := V) (SList.beforeBegin 0) ∧
    Aborts (V := V) (SList.eraseAfter 0 pos) ∧
    Aborts (SList.insertAfter E 0 pos w) ∧ (l ≠ 0 → Aborts (SList.insertAfter E l pos (0, j))) := by
  null

theorem C55_vector (T : Nat → Ops V) (v ty n : Nat) (pos last w : Loc) (j : Nat) :
    Harmless (Vec.destroy T 0) () ∧ Harmless (V := V) (Vec.empty 0) true ∧ Harmless (V := V) (Vec.size 0) 0 ∧ Harmless (V := V) (Vec.capacity 0) 0 ∧
    Harmless (V := V) (Vec.at_ 0 n) (0, 0) ∧ Harmless (V := V) (Vec.front 0) (0, 0) ∧ Harmless (V := V) (Vec.back 0) (0, 0) ∧ Harmless (V := V) (Vec.data 0) (0, 0) ∧
    Harmless (Vec.reserve T 0 n) () ∧ Harmless (Vec.shrinkToFit T 0) () ∧ Harmless (Vec.clear T 0) () ∧
    Harmless (Vec.insert T 0 pos w) pos ∧ Harmless (Vec.insertN T 0 pos n w) pos ∧ Harmless (Vec.erase T 0 pos) pos ∧ Harmless (Vec.eraseRange T 0 pos last) last ∧
    Harmless (Vec.pushBack T 0 w) () ∧ Harmless (Vec.popBack T 0) () ∧ Harmless (Vec.resize T 0 n) () ∧ Harmless (Vec.resizeWithValue T 0 n w) () ∧
    Harmless (V := V) (Vec.swap 0 v) () ∧ Harmless (V := V) (Vec.swap v 0) () ∧
    Harmless (Vec.copy T 0) 0 ∧ Harmless (Vec.assign T 0 v) 0 ∧ Harmless (Vec.assign T v 0) v ∧
    Harmless (Vec.insert T v pos (0, j)) pos ∧ Harmless (Vec.insertN T v pos n (0, j)) pos ∧ Harmless (Vec.pushBack T v (0, j)) () ∧
    Harmless (V := V) (Vec.create 0) 0 ∧ Harmless (Vec.createFromArray T ty (0, j) n) 0 ∧ Harmless (Vec.createN T ty n (0, j)) 0 := by
  null

theorem C55_vector_abort :
    Aborts (V := V) (Vec.vbegin 0) ∧ Aborts (V := V) (Vec.vend 0) := by
  null

theorem C55_deque (T : Nat → Ops V) (v ty n : Nat) (pos last w : Loc) (j : Nat) :
    Harmless (Deq.destroy T 0) () ∧ Harmless (V := V) (Deq.empty 0) true ∧ Harmless (V := V) (Deq.size 0) 0 ∧
    Harmless (V := V) (Deq.at_ 0 n) (0, 0) ∧ Harmless (V := V) (Deq.front 0) (0, 0) ∧ Harmless (V := V) (Deq.back 0) (0, 0) ∧
    Harmless (Deq.shrinkToFit T 0) () ∧ Harmless (Deq.clear T 0) () ∧
    Harmless (Deq.insert T 0 pos w) pos ∧ Harmless (Deq.insertN T 0 pos n w) pos ∧ Harmless (Deq.erase T 0 pos) pos ∧ Harmless (Deq.eraseRange T 0 pos last) last ∧
    Harmless (Deq.pushBack T 0 w) () ∧ Harmless (Deq.popBack T 0) () ∧ Harmless (Deq.pushFront T 0 w) () ∧ Harmless (Deq.popFront T 0) () ∧
    Harmless (Deq.resize T 0 n) () ∧ Harmless (Deq.resizeWithValue T 0 n w) () ∧
    Harmless (V := V) (Deq.swap 0 v) () ∧ Harmless (V := V) (Deq.swap v 0) () ∧
    Harmless (Deq.copy T 0) 0 ∧ Harmless (Deq.assign T 0 v) 0 ∧ Harmless (Deq.assign T v 0) v ∧
    Harmless (Deq.insert T v pos (0, j)) pos ∧ Harmless (Deq.insertN T v pos n (0, j)) pos ∧
    Harmless (Deq.pushBack T v (0, j)) () ∧ Harmless (Deq.pushFront T v (0, j)) () ∧
    Harmless (V := V) (Deq.create 0) 0 ∧ Harmless (Deq.createFrom T 0 w n) 0 ∧ Harmless (Deq.createFrom T ty (0, j) n) 0 := by
  null

theorem C55_deque_abort :
    Aborts (V := V) (Deq.dbegin 0) ∧ Aborts (V := V) (Deq.dend 0) := by
  null

/-- stacks, queues and priority queues -/
theorem C55_adapters (E : Types V) (F : Nat → V → V → Bool) (less : Nat → Nat) (a ty comp : Nat) (k : Option Adapter.Kind) (w : Loc) (j : Nat) :
    Harmless (Adapter.destroy E 0) () ∧ Harmless (Adapter.back E 0) (0, 0) ∧ Harmless (Adapter.front E 0) (0, 0) ∧ Harmless (Adapter.empty E 0) true ∧ Harmless (Adapter.size E 0) 0 ∧
    Harmless (Adapter.push E 0 w) () ∧ Harmless (Adapter.popB E 0) () ∧ Harmless (Adapter.popF E 0) () ∧ Harmless (Adapter.pqPush E F 0 w) () ∧ Harmless (Adapter.pqPop E F 0) () ∧
    Harmless (Adapter.swap E 0 a) () ∧ Harmless (Adapter.swap E a 0) () ∧
    Harmless (Adapter.push E a (0, j)) () ∧ Harmless (Adapter.pqPush E F a (0, j)) () ∧
    Harmless (Adapter.create E 0 k) 0 ∧ Harmless (Adapter.create E ty none) 0 ∧ Harmless (Adapter.pqCreate E less 0 k comp) 0 ∧ Harmless (Adapter.pqCreate E less ty none comp) 0 := by
  cases k <;> null

/-- the tree, hence sets, maps, multisets and multimaps -/
theorem C55_tree (E : Tree.Env V) (a kt vt mt kov cmp n first last : Nat) (w w2 w3 : Loc) (j : Nat) :
    Harmless (V := V) (Tree.clear 0) () ∧ Harmless (V := V) (Tree.destroy 0) () ∧ Harmless (V := V) (Tree.empty 0) true ∧ Harmless (V := V) (Tree.size 0) 0 ∧
    Harmless (V := V) (Tree.eraseRange 0 first last) () ∧ Harmless (Tree.eraseKey E 0 w) 0 ∧ Harmless (Tree.eraseKey E a (0, j)) 0 ∧
    Harmless (Tree.insertUniqueFromC E 0 w w2) () ∧ Harmless (Tree.insertEqualFromC E 0 w w2) () ∧ Harmless (Tree.eraseFromC E n 0 w w2) () ∧
    Harmless (Tree.insertUniqueFromC E a (0, j) w2) () ∧ Harmless (Tree.insertEqualFromC E a (0, j) w2) () ∧ Harmless (Tree.eraseFromC E n a (0, j) w2) () ∧
    Harmless (Tree.insertUniqueFromC E a w (0, j)) () ∧ Harmless (Tree.insertEqualFromC E a w (0, j)) () ∧ Harmless (Tree.eraseFromC E n a w (0, j)) () ∧
    Harmless (Tree.count E 0 w) 0 ∧ Harmless (V := V) (Tree.swap 0 a) () ∧ Harmless (V := V) (Tree.swap a 0) () ∧
    Harmless (Tree.equalRange E 0 w w2 w3) () ∧ Harmless (Tree.equalRange E a (0, j) w2 w3) () ∧
    Harmless (Tree.equalRange E a w (0, j) w3) () ∧ Harmless (Tree.equalRange E a w w2 (0, j)) () ∧
    Harmless (V := V) (Tree.create 0 vt mt kov cmp) 0 ∧ Harmless (V := V) (Tree.create kt 0 mt kov cmp) 0 ∧
    Harmless (V := V) (Tree.create kt vt mt 0 cmp) 0 ∧ Harmless (V := V) (Tree.create kt vt mt kov 0) 0 := by
  null

theorem C55_tree_abort (E : Tree.Env V) (a hint pos : Nat) (w : Loc) (j : Nat) :
    Aborts (V := V) (Tree.begin_ 0) ∧ Aborts (V := V) (Tree.end_ 0) ∧ Aborts (V := V) (Tree.rbegin 0) ∧ Aborts (V := V) (Tree.rend 0) ∧
    Aborts (Tree.insertUniqueValue E 0 w) ∧ Aborts (Tree.insertUnique E 0 hint w) ∧ Aborts (Tree.insertEqualValue E 0 w) ∧ Aborts (Tree.insertEqual E 0 hint w) ∧
    (a ≠ 0 → Aborts (Tree.insertUniqueValue E a (0, j))) ∧ (a ≠ 0 → Aborts (Tree.insertUnique E a hint (0, j))) ∧
    (a ≠ 0 → Aborts (Tree.insertEqualValue E a (0, j))) ∧ (a ≠ 0 → Aborts (Tree.insertEqual E a hint (0, j))) ∧
    Aborts (V := V) (Tree.erase 0 pos) ∧ Aborts (Tree.lowerBound E 0 w) ∧ Aborts (Tree.upperBound E 0 w) ∧ Aborts (Tree.find E 0 w) ∧
    (a ≠ 0 → Aborts (Tree.lowerBound E a (0, j))) ∧ (a ≠ 0 → Aborts (Tree.upperBound E a (0, j))) := by
  null

end CC.Props
