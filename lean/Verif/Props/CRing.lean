import Verif.Iter.Ring
import Verif.Props.CIterAll
/-!
# The iterators of a list go round (C96)

The sentinel of a doubly linked list closes the chain of its nodes to a ring of `size + 1` places: places `0, 1, …, size - 1` are the elements, place `size` is the end.  Iterators move
around this ring in both directions, forward and reverse iterators alike (for the latter, place 0 is the last element), and no move of an iterator of a list is undefined.
-/
namespace CC
open CC.Iter CC.Tac
open CC.CList (Elem)
variable {V : Type} {nf : Prop} {Z : Nat → Nat} {l s ty x y i j : Nat} {xs : List (Elem V)} {r : Src V} {F : HProp V}

/-- one move of the iterator `x` -/
inductive Move where
  /-- `C_ITER_INC` -/
  | inc
  /-- `C_ITER_DEC` -/
  | dec
  /-- `C_ITER_ADVANCE` -/
  | adv (n : Int)

/-- by how many places it moves -/
def Move.dist : Move → Int
  | .inc => 1
  | .dec => -1
  | .adv n => n

/-- how a client makes it -/
def Move.run (x : Addr) : Move → M V Unit
  | .inc => do let _ ← cInc x; pure ()
  | .dec => do let _ ← cDec x; pure ()
  | .adv n => cAdvance x n

/-- how a client makes several -/
def walk (x : Addr) : List Move → M V Unit
  | [] => pure ()
  | m :: ms => do m.run x; walk x ms

/-- the iterators of a list, forward or reverse -/
def OfList (l s ty : Nat) (xs : List (Elem V)) (r : Src V) : Prop := r = listSrc l s ty xs ∨ r = listSrcR l s ty xs

private theorem OfList.ring (hr : OfList l s ty xs r) : Ring nf (CList.isList l s ty xs) r ∧ r.len = xs.length := by
  rcases hr with rfl | rfl
  · exact ⟨ring_list, rfl⟩
  · exact ⟨ring_listR, rfl⟩

/-- Any sequence of moves of an iterator of a list, each by any number of places in any direction, leads to the place given by the sum of the moves, counted around the ring. -/
theorem C96_walk (hr : OfList l s ty xs r) (ms : List Move) (hi : i ≤ xs.length) :
    Triple nf (isIt r.kind r.ty x (r.pay i) ∗ CList.isList l s ty xs ∗ F) (walk x ms)
      (fun _ => isIt r.kind r.ty x (r.pay (((i : Int) + (ms.map Move.dist).sum) % ((xs.length : Int) + 1)).toNat) ∗ CList.isList l s ty xs ∗ F) := by
  obtain ⟨hR, hl⟩ := hr.ring (nf := nf)
  have hN : 0 < r.len + 1 := by omega
  rw [← hl] at hi ⊢
  change Triple nf _ _ (fun _ => isIt r.kind r.ty x (r.pay (around (r.len + 1) i (ms.map Move.dist).sum)) ∗ CList.isList l s ty xs ∗ F)
  induction ms generalizing i with
  | nil =>
    simp only [List.map_nil, List.sum_nil]
    rw [around_zero (by omega)]
    exact Triple.ret (ent_refl _)
  | cons m ms ih =>
    have hlt := around_lt (N := r.len + 1) (i := i) (n := m.dist) hN
    have := ih (i := around (r.len + 1) i m.dist) (by omega)
    rw [around_add hN] at this
    simp only [List.map_cons, List.sum_cons]
    unfold walk
    cases m with
    | inc =>
      unfold Move.run
      simp only [bind_assoc, pure_bind]
      exact cInc_ring hR hi this
    | dec =>
      unfold Move.run
      simp only [bind_assoc, pure_bind]
      exact cDec_ring hR hi this
    | adv n => exact cAdvance_ring hR hi this

/-- Advancing an iterator of a list by any multiple of `size + 1` leaves it where it is. -/
theorem C96_full_rounds (hr : OfList l s ty xs r) (k : Int) (hi : i ≤ xs.length) :
    Triple nf (isIt r.kind r.ty x (r.pay i) ∗ CList.isList l s ty xs ∗ F) (cAdvance x (k * ((xs.length : Int) + 1)))
      (fun _ => isIt r.kind r.ty x (r.pay i) ∗ CList.isList l s ty xs ∗ F) := by
  have := C96_walk (nf := nf) (x := x) (F := F) hr [.adv (k * ((xs.length : Int) + 1))] hi
  simp only [walk, Move.run, List.map_cons, List.map_nil, List.sum_cons, List.sum_nil, Move.dist, Int.add_zero] at this
  rw [Int.add_mul_emod_self_right, Int.emod_eq_of_lt (by omega) (by omega), Int.toNat_natCast, bind_pure] at this
  exact this

/-- The distance of any two iterators of a list, in any order, is the number of steps from the first to the second in the direction of the iterators, at most `size`: it is
never negative. -/
theorem C96_distance (hr : OfList l s ty xs r) (hi : i ≤ xs.length) (hj : j ≤ xs.length) :
    Triple nf (isIt r.kind r.ty x (r.pay i) ∗ isIt r.kind r.ty y (r.pay j) ∗ CList.isList l s ty xs ∗ F) (cDistance Z x y)
      (fun d => ⌜d = if i ≤ j then (j : Int) - i else (xs.length : Int) + 1 - (i - j)⌝ ∗ isIt r.kind r.ty x (r.pay i) ∗ isIt r.kind r.ty y (r.pay j) ∗ CList.isList l s ty xs ∗ F) := by
  obtain ⟨hR, hl⟩ := hr.ring (nf := nf)
  rw [← bind_pure (cDistance Z x y)]
  refine cDistance_ring hR (by omega) (by omega) ?_
  refine Triple.ret (ent_pure_right ?_ (ent_refl _))
  rw [hl]
  split
  · exact Int.emod_eq_of_lt (by omega) (by omega)
  · rw [show (j : Int) - i = (xs.length : Int) + 1 - (i - j) + ((xs.length : Int) + 1) * (-1) by omega, Int.add_mul_emod_self_left]
    exact Int.emod_eq_of_lt (by omega) (by omega)

/-- Advancing an iterator by its distance to another one leads to the place of the other one, whatever their order. -/
theorem C96_distance_reaches (hr : OfList l s ty xs r) (hi : i ≤ xs.length) (hj : j ≤ xs.length) :
    Triple nf (isIt r.kind r.ty x (r.pay i) ∗ isIt r.kind r.ty y (r.pay j) ∗ CList.isList l s ty xs ∗ F) (do let d ← cDistance Z x y; cAdvance x d)
      (fun _ => isIt r.kind r.ty x (r.pay j) ∗ isIt r.kind r.ty y (r.pay j) ∗ CList.isList l s ty xs ∗ F) := by
  obtain ⟨hR, hl⟩ := hr.ring (nf := nf)
  refine Triple.bind (C96_distance hr hi hj) fun d => ?_
  refine Triple.pure_left fun hd => ?_
  have hN : 0 < r.len + 1 := by omega
  have hh := cAdvance_ring (nf := nf) (r := r) (i := i) (a := x) (n := d) (K := pure) (F := isIt r.kind r.ty y (r.pay j) ∗ F)
    (Q := fun _ => isIt r.kind r.ty x (r.pay (around (r.len + 1) i d)) ∗ CList.isList l s ty xs ∗ isIt r.kind r.ty y (r.pay j) ∗ F) hR (by omega) (Triple.ret (ent_refl _))
  rw [bind_pure] at hh
  have he : around (r.len + 1) i d = j := by
    apply Int.ofNat_inj.1
    rw [around_cast hN, hd, hl]
    split
    · rw [show (i : Int) + (j - i) = j by omega]
      exact Int.emod_eq_of_lt (by omega) (by omega)
    · rw [show (i : Int) + ((xs.length : Int) + 1 - (i - j)) = (j : Int) + ((xs.length + 1 : Nat) : Int) by omega, Int.add_emod_right]
      exact Int.emod_eq_of_lt (by omega) (by omega)
  rw [he] at hh
  exact Triple.conseq hh (by cancel) fun _ => by cancel

/-- the list 3, 1, 2 with an iterator at its end and one at its begin, in a concrete memory: the distance from the end to the begin is 1 and advancing the end by it leads to the begin -/
example : ∃ (m m' : Mem Nat) (l s x y : Nat) (xs : List (Elem Nat)) (F : HProp Nat), CList.vals xs = [3, 1, 2] ∧
    (isIt .list 1 y ((listSrc l s 1 xs).pay 3) ∗ isIt .list 1 x ((listSrc l s 1 xs).pay 0) ∗ CList.isList l s 1 xs ∗ F) m.cells ∧ cDistance (fun _ => 4) y x m = some (.ok (1, m')) := by
  obtain ⟨m, l, s, xs, ho, hxs, hm⟩ := CList.exists_list (V := Nat) (fun _ => ⟨0, fun a b => a < b, fun a b => a == b⟩) 1 (by simp) [3, 1, 2] (by simp)
  have hl : xs.length = 3 := by
    have := congrArg List.length hxs
    simpa [CList.vals] using this
  obtain ⟨m, x, y, ho, hm⟩ := IAlgo.more_its (Z := fun _ => 4) (listSrc_ok (l := l) (s := s) (ty := 1) (xs := xs) (by simp)) ho hm
  have h := C96_distance (nf := True) (Z := fun _ => 4) (l := l) (s := s) (ty := 1) (xs := xs) (x := y) (y := x) (i := 3) (j := 0) (F := arr 1 1 (([3, 1, 2] : List Nat).map fun v => Val.obj (some v))) (.inl rfl) (by omega) (by omega)
  have hm : (isIt .list 1 y ((listSrc l s 1 xs).pay 3) ∗ isIt .list 1 x ((listSrc l s 1 xs).pay 0) ∗ CList.isList l s 1 xs ∗ arr 1 1 (([3, 1, 2] : List Nat).map fun v => Val.obj (some v))) m.cells := by
    have h3 : (listSrc l s 1 xs).pay 3 = (listSrc l s 1 xs).pay xs.length := by rw [hl]
    rw [h3]
    simp only [IAlgo.It] at hm
    change (_ ∗ isIt .list 1 x _ ∗ isIt .list 1 y ((listSrc l s 1 xs).pay xs.length) ∗ _) m.cells at hm
    exact (show _ ⊢ₛ _ by cancel) _ hm
  obtain ⟨d, m', hd, _, hp⟩ := h.run (F := emp) (s := m) (fun _ => ho) (by rw [sep_emp]; exact hm)
  rw [sep_assoc, hpure_sep_apply] at hp
  refine ⟨m, m', l, s, x, y, xs, _, hxs, hm, ?_⟩
  rw [hd, hp.1, hl]
  rfl

end CC
