/-! ## The macros -/

/-- `__c_get_less(NULL)` and `__c_get_equal(NULL)`, so every macro of Verif/IAlgo/Forms.lean with NULL for its first iterator, read through NULL -/
theorem C78_forms_violated (E : Types V) (last last2 middle d e : Addr) (value : Loc) (n : Nat) (o o2 : IAlgo.Out) (Z : Nat → Nat) (low : Addr → Nat) (s : Mem V) :
    Form.findBy E 0 last o value s = some (.error .ub) ∧ Form.equal E 0 last last2 s = some (.error .ub) ∧ Form.mismatch E 0 last last2 o o2 s = some (.error .ub) ∧
    Form.findFirstOf E 0 last last2 d o s = some (.error .ub) ∧ Form.findLastOf E 0 last last2 d o s = some (.error .ub) ∧ Form.adjacentFind E 0 last o s = some (.error .ub) ∧
    Form.search E 0 last last2 d o s = some (.error .ub) ∧ Form.searchLast E 0 last last2 d o s = some (.error .ub) ∧ Form.searchN E 0 last n value o s = some (.error .ub) ∧
    Form.searchLastN E 0 last n value o s = some (.error .ub) ∧ Form.unique E low 0 last o s = some (.error .ub) ∧ Form.uniqueCopy E low 0 last d o s = some (.error .ub) ∧
    Form.isSorted E 0 last s = some (.error .ub) ∧ Form.isSortedUntil E 0 last o s = some (.error .ub) ∧ Form.sort E Z low 0 last s = some (.error .ub) ∧
    Form.partialSort E Z 0 middle last s = some (.error .ub) ∧ Form.partialSortCopy E Z 0 last d e o s = some (.error .ub) ∧
    Form.lowerBound E Z 0 last value o s = some (.error .ub) ∧ Form.upperBound E Z 0 last value o s = some (.error .ub) ∧ Form.binarySearch E Z 0 last value s = some (.error .ub) ∧
    Form.equalRange E Z 0 last value o o2 s = some (.error .ub) ∧ Form.merge E low 0 last last2 d e o s = some (.error .ub) ∧ Form.includes E 0 last last2 d s = some (.error .ub) ∧
    Form.setDifference E low 0 last last2 d e o s = some (.error .ub) ∧ Form.setIntersection E 0 last last2 d e o s = some (.error .ub) ∧
    Form.setSymDifference E low 0 last last2 d e o s = some (.error .ub) ∧ Form.setUnion E low 0 last last2 d e o s = some (.error .ub) ∧
    Form.isHeap E Z 0 last s = some (.error .ub) ∧ Form.isHeapUntil E Z 0 last o s = some (.error .ub) ∧ Form.makeHeap E Z 0 last s = some (.error .ub) ∧
    Form.pushHeap E Z 0 last s = some (.error .ub) ∧ Form.popHeap E Z 0 last s = some (.error .ub) ∧ Form.sortHeap E Z 0 last s = some (.error .ub) ∧
    Form.maxElement E 0 last o s = some (.error .ub) ∧ Form.minElement E 0 last o s = some (.error .ub) ∧ Form.minmaxElement E 0 last o o2 s = some (.error .ub) ∧
    Form.lexCompare E 0 last last2 d s = some (.error .ub) := by
  refine ⟨rfl, rfl, rfl, rfl, rfl, rfl, rfl, rfl, rfl, rfl, rfl, rfl, rfl, rfl, rfl, rfl, rfl, rfl, rfl, rfl, rfl, rfl, rfl, rfl, rfl, rfl, rfl, rfl, rfl, rfl, rfl, rfl, rfl, rfl, rfl, rfl, rfl⟩

/-- an example: `algo_find_by(NULL, last, &found, &value, pred)` in any memory -/
example (last : Addr) (value : Loc) (p : V → V → Bool) (m : Mem V) (q : Loc) : IAlgo.findBy 0 last (.var q) value p m = some (.ok ((false, 0), m)) :=
  C78_find 0 last (.var q) value p (.inl rfl) m

end CC.Props
