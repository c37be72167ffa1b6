import Verif.Props.CVector
import Verif.Props.CDeque
import Verif.Core.Cost
/-!
# C68, continued: access to vectors and deques takes a bounded number of steps

Memories with such containers: `Vec.exists_vec` (Verif/Props/CVector.lean), `Deq.exists_deq` (Verif/Props/CDeque.lean).
-/
namespace CC.Vec
open CC.Tac
variable {V W : Type} {nf : Prop} {T : Nat → Ops V} {ty : Nat} {e : ElemSpec nf (T ty) W}
variable {v b cap : Nat} {ws : List W}

theorem C68_vector_at {i : Nat} :
    TripleC nf (isVec e v b cap ws) (at_ v i) (fun r => ⌜r = (b, 1 + i)⌝ ∗ isVec e v b cap ws) 1 := by
  refine TripleC.intro C16_at ?_ (Le.refl _)
  simp only [at_, begin_]
  cost
theorem C68_vector_front :
    TripleC nf (isVec e v b cap ws) (front v) (fun r => ⌜r = if ws = [] then (0, 0) else (b, 1)⌝ ∗ isVec e v b cap ws) 3 := by
  refine TripleC.intro C16_front ?_ (Le.refl _)
  simp only [front, empty, begin_, end_]
  cost
theorem C68_vector_back :
    TripleC nf (isVec e v b cap ws) (back v) (fun r => ⌜r = if ws = [] then (0, 0) else (b, ws.length)⌝ ∗ isVec e v b cap ws) 3 := by
  refine TripleC.intro C16_back ?_ (Le.refl _)
  simp only [back, empty, begin_, end_, pminus]
  cost
theorem C68_vector_data : TripleC nf (isVec e v b cap ws) (data v) (fun r => ⌜r = (b, 1)⌝ ∗ isVec e v b cap ws) 1 := by
  refine TripleC.intro C16_data ?_ (Le.refl _)
  simp only [data, begin_]
  cost
theorem C68_vector_size : TripleC nf (isVec e v b cap ws) (size v) (fun r => ⌜r = ws.length⌝ ∗ isVec e v b cap ws) 2 := by
  refine TripleC.intro C16_size ?_ (Le.refl _)
  simp only [size, begin_, end_, psub]
  cost
theorem C68_vector_capacity : TripleC nf (isVec e v b cap ws) (capacity v) (fun r => ⌜r = cap⌝ ∗ isVec e v b cap ws) 2 := by
  refine TripleC.intro C17_capacity ?_ (Le.refl _)
  simp only [capacity, begin_, eos, psub]
  cost
theorem C68_vector_empty : TripleC nf (isVec e v b cap ws) (empty v) (fun r => ⌜r = true ↔ ws = []⌝ ∗ isVec e v b cap ws) 2 := by
  refine TripleC.intro C16_empty ?_ (Le.refl _)
  simp only [empty, begin_, end_]
  cost
theorem C68_vector_swap {ty2 : Nat} {e2 : ElemSpec nf (T ty2) W} {v2 b2 cap2 : Nat} {ws2 : List W} :
    TripleC nf (isVec e v b cap ws ∗ isVec e2 v2 b2 cap2 ws2) (swap v v2)
      (fun _ => isVec e2 v b2 cap2 ws2 ∗ isVec e v2 b cap ws) 16 := by
  refine TripleC.intro C16_swap ?_ (Le.refl _)
  simp only [swap]
  cost
end CC.Vec

namespace CC.Deq
open CC.Tac
variable {V W : Type} {nf : Prop} {T : Nat → Ops V} {ty : Nat} {e : ElemSpec nf (T ty) W}
variable {v b lo hi : Nat} {ws : List W}

theorem C68_deque_at {i : Nat} :
    TripleC nf (isDeq e v b lo hi ws) (at_ v i) (fun r => ⌜r = (b, 1 + lo + i)⌝ ∗ isDeq e v b lo hi ws) 1 := by
  refine TripleC.intro C24_at ?_ (Le.refl _)
  simp only [at_, begin_]
  cost
theorem C68_deque_front :
    TripleC nf (isDeq e v b lo hi ws) (front v) (fun r => ⌜r = if ws = [] then (0, 0) else (b, 1 + lo)⌝ ∗ isDeq e v b lo hi ws) 3 := by
  refine TripleC.intro C24_front ?_ (Le.refl _)
  simp only [front, empty, begin_, end_]
  cost
theorem C68_deque_back :
    TripleC nf (isDeq e v b lo hi ws) (back v) (fun r => ⌜r = if ws = [] then (0, 0) else (b, lo + ws.length)⌝ ∗ isDeq e v b lo hi ws) 3 := by
  refine TripleC.intro C24_back ?_ (Le.refl _)
  simp only [back, empty, begin_, end_, pminus]
  cost
theorem C68_deque_size : TripleC nf (isDeq e v b lo hi ws) (size v) (fun r => ⌜r = ws.length⌝ ∗ isDeq e v b lo hi ws) 2 := by
  refine TripleC.intro C24_size ?_ (Le.refl _)
  simp only [size, begin_, end_, psub]
  cost
theorem C68_deque_capacity :
    TripleC nf (isDeq e v b lo hi ws) (capacity v) (fun r => ⌜r = lo + ws.length + hi⌝ ∗ isDeq e v b lo hi ws) 2 := by
  refine TripleC.intro C24_capacity ?_ (Le.refl _)
  simp only [capacity, sos, eos, psub]
  cost
theorem C68_deque_empty : TripleC nf (isDeq e v b lo hi ws) (empty v) (fun r => ⌜r = true ↔ ws = []⌝ ∗ isDeq e v b lo hi ws) 2 := by
  refine TripleC.intro C24_empty ?_ (Le.refl _)
  simp only [empty, begin_, end_]
  cost
theorem C68_deque_swap {ty2 : Nat} {e2 : ElemSpec nf (T ty2) W} {v2 b2 lo2 hi2 : Nat} {ws2 : List W} :
    TripleC nf (isDeq e v b lo hi ws ∗ isDeq e2 v2 b2 lo2 hi2 ws2) (swap v v2)
      (fun _ => isDeq e2 v b2 lo2 hi2 ws2 ∗ isDeq e v2 b lo hi ws) 20 := by
  refine TripleC.intro C24_swap ?_ (Le.refl _)
  simp only [swap]
  cost
end CC.Deq
