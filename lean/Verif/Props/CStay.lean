import Verif.Vec.Stay
import Verif.Deq.Stay
import Verif.Props.CVector
import Verif.Props.CDeque
/-!
# Property C94: references into vectors and deques

A reference (or iterator: both are the address of the element) to an element stays valid, and goes on denoting this element, as long as no operation needs more storage than there is
and none acts on the element's side of the sequence.  `Keeps`, `keep` say which operations are meant, in terms of sizes, capacities and positions only.
-/
namespace CC.Vec
open CC CC.Tac
variable {V W : Type} {nf : Prop} {T : Nat → Ops V} {ty : Nat} {e : ElemSpec nf (T ty) W} {v b cap : Nat} {ws : List W} {R : HProp V} {ρ : Loc → W}

/-- the operation finds enough room and acts behind position `i` only -/
def Keeps (i : Nat) (st : St W) : Op → Prop
  | .pushBack _ => st.ws.length + 1 ≤ st.cap
  | .pushBackAlias _ => True
  | .popBack => i + 1 < st.ws.length
  | .insert j _ => i < j ∧ st.ws.length + 1 ≤ st.cap
  | .insertN j n _ => i < j ∧ st.ws.length + n ≤ st.cap
  | .erase j => i < j
  | .eraseRange j _ => i < j
  | .clear => False
  | .resize n => i < n ∧ n ≤ st.cap
  | .resizeWithValue n _ => i < n ∧ n ≤ st.cap
  | .reserve n => n ≤ st.cap
  | .shrinkToFit => False

/-- so does every operation of the history, in every state the previous ones can lead to -/
def KeepsAll (dflt : W) (ρ : Loc → W) (nf : Prop) (i : Nat) : List Op → St W → Prop
  | [], _ => True
  | op :: ops, st => Keeps i st op ∧ ∀ st', Step dflt ρ nf op st st' → KeepsAll dflt ρ nf i ops st'

theorem keeps_room {i : Nat} {st : St W} {op : Op} (h : Keeps i st op) : Room st op := by
  cases op <;> first | exact h | exact h.2 | trivial

theorem edit_front {i need : Nat} {w : W} {st st' : St W} {ws' : List W} (he : Edit nf need st ws' st') (hn : need ≤ st.cap) (hw : ws'[i]? = some w) : st'.ws[i]? = some w := by
  rcases he with ⟨h, _⟩ | ⟨_, h, _⟩
  · rw [h]; exact hw
  · omega

theorem keeps_step {dflt : W} {i : Nat} {w : W} {st st' : St W} {op : Op} (hw : st.ws[i]? = some w) (hk : Keeps i st op) (h : Step dflt ρ nf op st st') : st'.ws[i]? = some w := by
  have hlt : i < st.ws.length := by
    rcases Nat.lt_or_ge i st.ws.length with h | h
    · exact h
    · rw [List.getElem?_eq_none h] at hw; cases hw
  cases op with
  | pushBack a => exact edit_front h hk (by rw [List.getElem?_append_left hlt]; exact hw)
  | pushBackAlias j =>
    obtain ⟨x, _, rfl⟩ := h
    show (st.ws ++ [x])[i]? = _
    rw [List.getElem?_append_left hlt]; exact hw
  | popBack =>
    have hk' : i + 1 < st.ws.length := hk
    rw [show st' = _ from h]
    show st.ws.dropLast[i]? = _
    rw [List.dropLast_eq_take, List.getElem?_take_of_lt (by omega)]; exact hw
  | insert j a =>
    have hk1 : i < j := hk.1
    refine edit_front h hk.2 ?_
    rw [List.getElem?_append_left (by simp; omega), List.getElem?_take_of_lt hk1]; exact hw
  | insertN j n a =>
    have hk1 : i < j := hk.1
    refine edit_front h hk.2 ?_
    rw [List.append_assoc, List.getElem?_append_left (by simp; omega), List.getElem?_take_of_lt hk1]; exact hw
  | erase j =>
    have hk1 : i < j := hk
    rw [show st' = _ from h]
    show (st.ws.eraseIdx j)[i]? = _
    rw [List.getElem?_eraseIdx_of_lt hk1]; exact hw
  | eraseRange j k =>
    have hk1 : i < j := hk
    rw [show st' = _ from h]
    show (st.ws.take j ++ st.ws.drop k)[i]? = _
    rw [List.getElem?_append_left (by simp; omega), List.getElem?_take_of_lt hk1]; exact hw
  | clear => exact hk.elim
  | resize n =>
    refine edit_front h hk.2 ?_
    have hk1 : i < n := hk.1
    rw [List.getElem?_append_left (by simp; omega), List.getElem?_take_of_lt hk1]; exact hw
  | resizeWithValue n a =>
    refine edit_front h hk.2 ?_
    have hk1 : i < n := hk.1
    rw [List.getElem?_append_left (by simp; omega), List.getElem?_take_of_lt hk1]; exact hw
  | reserve n =>
    have hk1 : n ≤ st.cap := hk
    refine edit_front h hk ?_
    rw [if_neg (by omega)]; exact hw
  | shrinkToFit => exact hk.elim

theorem runOps_stay {i : Nat} {w : W} {ops : List Op} (hw : ws[i]? = some w) (hv : ValidOps e R ρ ops ⟨cap, ws⟩) (hk : KeepsAll e.dflt ρ nf i ops ⟨cap, ws⟩) :
    Triple nf (isVec e v b cap ws ∗ R) (runOps T v ops)
      (fun _ => ∃ₛ cap' ws', ⌜ws'[i]? = some w ∧ Steps e.dflt ρ nf ops ⟨cap, ws⟩ ⟨cap', ws'⟩⌝ ∗ isVec e v b cap' ws' ∗ R) := by
  induction ops generalizing cap ws with
  | nil =>
    rw [runOps]
    apply Triple.ret
    xexists cap, ws
    cancel
    exact ⟨hw, Steps.nil _⟩
  | cons op ops ih =>
    rw [runOps]
    refine Triple.bind (runOp_stay hv.1) ?_
    intro _
    xintro b' cap' ws' h
    obtain rfl := h.2 (keeps_room hk.1)
    refine Triple.post (ih (keeps_step (st := ⟨cap, ws⟩) (st' := ⟨cap', ws'⟩) hw hk.1 h.1) (hv.2 _ h.1) (hk.2 _ h.1)) ?_
    intro _
    xintro cap'' ws'' h'
    xexists cap'', ws''
    cancel
    exact ⟨h'.1, Steps.cons h.1 h'.2⟩

/-- **Vectors**: the reference to element `i` taken before a history that keeps it is the reference to element `i` after it, and this is still the same element. -/
theorem C94_vector {i : Nat} {w : W} {ops : List Op} (hw : ws[i]? = some w) (hv : ValidOps e R ρ ops ⟨cap, ws⟩) (hk : KeepsAll e.dflt ρ nf i ops ⟨cap, ws⟩) :
    Triple nf (isVec e v b cap ws ∗ R) (do
        let p ← at_ v i
        runOps T v ops
        let q ← at_ v i
        pure (p, q))
      (fun r => ∃ₛ cap' ws', ⌜r.1 = r.2 ∧ ws'[i]? = some w ∧ Steps e.dflt ρ nf ops ⟨cap, ws⟩ ⟨cap', ws'⟩⌝ ∗ isVec e v b cap' ws' ∗ R) := by
  call (at_spec (v := v))
  intro p
  xsub
  refine Triple.bind (runOps_stay hw hv hk) ?_
  intro _
  xintro cap' ws' h
  call (at_spec (v := v))
  intro q
  xsub
  apply Triple.ret
  xexists cap', ws'
  cancel

/-- every memory with a vector of two elements that has room for one more, and an object to push: the history `push_back, pop_back, erase(1)` meets the hypotheses for the first element -/
example {e : ElemSpec nf (T ty) W} {x y w : W} {a : Loc} (ha : a.1 ≠ 0) :
    ValidOps e (cell e a w ∗ R) (fun _ => w) [.pushBack a, .popBack, .erase 1] ⟨3, [x, y]⟩ ∧
      KeepsAll e.dflt (fun _ => w) nf 0 [.pushBack a, .popBack, .erase 1] ⟨3, [x, y]⟩ := by
  have h1 : ∀ st' : St W, Step e.dflt (fun _ => w) nf (.pushBack a) ⟨3, [x, y]⟩ st' → st'.ws = [x, y, w] := by
    intro st' h
    rcases h with ⟨h, _⟩ | ⟨_, h, _⟩
    · exact h
    · simp at h
  refine ⟨⟨⟨⟨ha, R, rfl⟩, Or.inr (Or.inr (by simp))⟩, fun st' h => ⟨trivial, fun st2 h2 => ⟨?_, fun _ _ => trivial⟩⟩⟩,
    ⟨by simp [Keeps], fun st' h => ⟨?_, fun st2 h2 => ⟨by simp [Keeps], fun _ _ => trivial⟩⟩⟩⟩
  · rw [show st2 = _ from h2]
    show 1 ≤ st'.ws.dropLast.length
    rw [h1 _ h]; simp
  · show 0 + 1 < st'.ws.length
    rw [h1 _ h]; simp

/-- such a memory: the API makes vectors of two elements with room for one more -/
example : ∃ (m : Mem Nat) (v b a : Addr),
    (isVec (T := fun _ => plainOps intTy) (ty := 1) (plainSpec (nf := True) intTy) v b 3 [intTy.dflt, intTy.dflt] ∗ blk a 1 ∗ cell (plainSpec (nf := True) intTy) (a, 1) intTy.dflt) m.cells := by
  obtain ⟨m, v, b, a, _, hm⟩ := exists_vec_spare (T := fun _ => plainOps intTy) (ty := 1) (plainSpec (nf := True) intTy) (by simp) 2 1 (by simp)
  exact ⟨m, v, b, a, hm⟩

end CC.Vec

namespace CC.Deq
open CC CC.Tac
variable {V W : Type} {nf : Prop} {T : Nat → Ops V} {ty : Nat} {e : ElemSpec nf (T ty) W} {v b lo hi : Nat} {ws : List W} {R : HProp V} {ρ : Loc → W}

/-- adding `n` elements at position `j`: the elements behind are moved if there is room at the back, otherwise those in front if there is room there, otherwise all -/
def keepIns (i j n : Nat) (st : St W) : Option Nat :=
  if n ≤ st.hi then (if i < j then some i else none) else if n ≤ st.lo then (if j ≤ i then some (i + n) else none) else none

/-- the index of element `i` after the operation, if it stays where it is -/
def keep (i : Nat) (st : St W) : Op → Option Nat
  | .pushBack _ => if 0 < st.hi then some i else none
  | .pushFront _ => if 0 < st.lo then some (i + 1) else none
  | .popBack => if i + 1 < st.ws.length then some i else none
  | .popFront => if 0 < i then some (i - 1) else none
  | .insert j _ => keepIns i j 1 st
  | .insertN j n _ => keepIns i j n st
  | .erase j => if i < j then some i else none
  | .eraseRange j _ => if i < j then some i else none
  | .clear => none
  | .resize n => if i < n ∧ n - st.ws.length ≤ st.hi then some i else none
  | .resizeWithValue n _ => if i < n ∧ n - st.ws.length ≤ st.hi then some i else none
  | .shrinkToFit => none

/-- every operation of the history keeps the element, whose index is `i` at the beginning and `k` at the end -/
def KeepsAll (dflt : W) (ρ : Loc → W) (nf : Prop) : List Op → St W → Nat → Nat → Prop
  | [], _, i, k => i = k
  | op :: ops, st, i, k => ∃ j, keep i st op = some j ∧ ∀ st', Step dflt ρ nf op st st' → KeepsAll dflt ρ nf ops st' j k

theorem keepIns_spec {i j k n extra : Nat} {w x : W} {st st' : St W} {ws' : List W} (hj : j ≤ st.ws.length) (hw : st.ws[i]? = some w) (hlt : i < st.ws.length)
    (hk : keepIns i j n st = some k) (hws : ws' = st.ws.take j ++ List.replicate n x ++ st.ws.drop j) (he : Edit nf n (st.lo + st.hi) st ws' st') (hs : Spare n extra st st') :
    st'.ws[k]? = some w ∧ st'.lo + k = st.lo + i ∧ n ≤ st.lo + st.hi := by
  have hl : ws'.length = st.ws.length + n := by rw [hws]; simp; omega
  unfold keepIns at hk
  by_cases h1 : n ≤ st.hi
  · rw [if_pos h1] at hk
    by_cases h2 : i < j
    · rw [if_pos h2] at hk
      cases hk
      rcases he with ⟨h, _⟩ | ⟨_, h, _⟩
      · refine ⟨?_, ?_, by omega⟩
        · rw [h, hws, List.append_assoc, List.getElem?_append_left (by simp; omega), List.getElem?_take_of_lt h2]; exact hw
        · rw [(hs.1 (by omega)).2.2.1 h1]
      · omega
    · rw [if_neg h2] at hk; cases hk
  · rw [if_neg h1] at hk
    by_cases h2 : n ≤ st.lo
    · rw [if_pos h2] at hk
      by_cases h3 : j ≤ i
      · rw [if_pos h3] at hk
        cases hk
        rcases he with ⟨h, hc⟩ | ⟨_, h, _⟩
        · refine ⟨?_, ?_, by omega⟩
          · rw [h, hws, List.getElem?_append_right (by simp; omega), List.getElem?_drop]
            rw [show j + (i + n - (st.ws.take j ++ List.replicate n x).length) = i by simp; omega]
            exact hw
          · have h4 := (hs.1 (by omega)).2.2.2 (by omega) h2
            have h5 := hc (by omega)
            have h6 : st'.ws.length = st.ws.length + n := by rw [h]; exact hl
            simp only [St.cap] at h5
            omega
        · omega
      · rw [if_neg h3] at hk; cases hk
    · rw [if_neg h2] at hk; cases hk

theorem keepRes_spec {i j n extra : Nat} {w x : W} {st st' : St W} {ws' : List W} (hw : st.ws[i]? = some w) (hlt : i < st.ws.length)
    (hk : (if i < n ∧ n - st.ws.length ≤ st.hi then some i else none) = some j) (hws : ws' = st.ws.take n ++ List.replicate (n - st.ws.length) x)
    (he : Edit nf (n - st.ws.length) (st.lo + st.hi) st ws' st') (hs : Spare (n - st.ws.length) extra st st') :
    st'.ws[j]? = some w ∧ st'.lo + j = st.lo + i ∧ n - st.ws.length ≤ st.lo + st.hi := by
  by_cases h1 : i < n ∧ n - st.ws.length ≤ st.hi
  · rw [if_pos h1] at hk
    cases hk
    rcases he with ⟨h, _⟩ | ⟨_, h, _⟩
    · refine ⟨?_, ?_, by omega⟩
      · rw [h, hws, List.getElem?_append_left (by simp; omega), List.getElem?_take_of_lt h1.1]; exact hw
      · rw [(hs.1 (by omega)).2.2.1 h1.2]
    · omega
  · rw [if_neg h1] at hk; cases hk

theorem keep_step {dflt : W} {i j : Nat} {w : W} {st st' : St W} {op : Op} (hv : Valid e R ρ st op) (hw : st.ws[i]? = some w) (hk : keep i st op = some j)
    (h : Step dflt ρ nf op st st') : st'.ws[j]? = some w ∧ st'.lo + j = st.lo + i ∧ Space st op := by
  have hlt : i < st.ws.length := by
    rcases Nat.lt_or_ge i st.ws.length with h | h
    · exact h
    · rw [List.getElem?_eq_none h] at hw; cases hw
  cases op with
  | pushBack a =>
    simp only [keep] at hk
    by_cases h0 : 0 < st.hi
    · rw [if_pos h0] at hk
      cases hk
      obtain ⟨⟨h1, _⟩ | ⟨_, h1, _⟩, h2, _⟩ := h
      · refine ⟨?_, by rw [h2 h0], h0⟩
        rw [h1, List.getElem?_append_left hlt]; exact hw
      · omega
    · rw [if_neg h0] at hk; cases hk
  | pushFront a =>
    simp only [keep] at hk
    by_cases h0 : 0 < st.lo
    · rw [if_pos h0] at hk
      cases hk
      obtain ⟨⟨h1, h3⟩ | ⟨_, h1, _⟩, h2, _⟩ := h
      · have h4 := h2 h0
        have h5 := h3 h0
        have h6 : st'.ws.length = st.ws.length + 1 := by rw [h1]; rfl
        simp only [St.cap] at h5
        refine ⟨?_, by omega, h0⟩
        rw [h1, List.getElem?_cons_succ]; exact hw
      · omega
    · rw [if_neg h0] at hk; cases hk
  | popBack =>
    simp only [keep] at hk
    by_cases h0 : i + 1 < st.ws.length
    · rw [if_pos h0] at hk
      cases hk
      rw [show st' = _ from h, if_neg (by intro h; rw [h] at hlt; simp at hlt)]
      refine ⟨?_, rfl, trivial⟩
      show st.ws.dropLast[i]? = _
      rw [List.dropLast_eq_take, List.getElem?_take_of_lt (by omega)]; exact hw
    · rw [if_neg h0] at hk; cases hk
  | popFront =>
    simp only [keep] at hk
    by_cases h0 : 0 < i
    · rw [if_pos h0] at hk
      cases hk
      rw [show st' = _ from h, if_neg (by intro h; rw [h] at hlt; simp at hlt)]
      refine ⟨?_, by show st.lo + 1 + (i - 1) = _; omega, trivial⟩
      show st.ws.tail[i - 1]? = _
      rw [List.getElem?_tail, show i - 1 + 1 = i by omega]; exact hw
    · rw [if_neg h0] at hk; cases hk
  | insert p a => exact keepIns_spec (x := ρ a) hv.1 hw hlt hk (by simp) h.1 h.2
  | insertN p n a => exact keepIns_spec (x := ρ a) hv.1 hw hlt hk rfl h.1 h.2
  | erase p =>
    simp only [keep] at hk
    by_cases h0 : i < p
    · rw [if_pos h0] at hk
      cases hk
      rw [show st' = _ from h]
      by_cases h1 : p < st.ws.length
      · rw [if_pos h1]
        refine ⟨?_, rfl, trivial⟩
        show (st.ws.eraseIdx p)[i]? = _
        rw [List.getElem?_eraseIdx_of_lt h0]; exact hw
      · rw [if_neg h1]
        exact ⟨hw, rfl, trivial⟩
    · rw [if_neg h0] at hk; cases hk
  | eraseRange p q =>
    simp only [keep] at hk
    by_cases h0 : i < p
    · rw [if_pos h0] at hk
      cases hk
      rw [show st' = _ from h]
      refine ⟨?_, rfl, trivial⟩
      show (st.ws.take p ++ st.ws.drop q)[i]? = _
      rw [List.getElem?_append_left (by simp; omega), List.getElem?_take_of_lt h0]; exact hw
    · rw [if_neg h0] at hk; cases hk
  | clear => cases hk
  | resize n => exact keepRes_spec (x := dflt) hw hlt hk rfl h.1 h.2
  | resizeWithValue n a => exact keepRes_spec (x := ρ a) hw hlt hk rfl h.1 h.2
  | shrinkToFit => cases hk

theorem runOps_stay {i k : Nat} {w : W} {ops : List Op} (hw : ws[i]? = some w) (hv : ValidOps e R ρ ops ⟨lo, hi, ws⟩) (hk : KeepsAll e.dflt ρ nf ops ⟨lo, hi, ws⟩ i k) :
    Triple nf (isDeq e v b lo hi ws ∗ R) (runOps T v ops)
      (fun _ => ∃ₛ lo' hi' ws', ⌜ws'[k]? = some w ∧ lo' + k = lo + i ∧ Steps e.dflt ρ nf ops ⟨lo, hi, ws⟩ ⟨lo', hi', ws'⟩⌝ ∗ isDeq e v b lo' hi' ws' ∗ R) := by
  induction ops generalizing lo hi ws i with
  | nil =>
    rw [runOps]
    obtain rfl : i = k := hk
    apply Triple.ret
    xexists lo, hi, ws
    cancel
    exact ⟨hw, rfl, Steps.nil _⟩
  | cons op ops ih =>
    rw [runOps]
    obtain ⟨j, hj, hk⟩ := hk
    refine Triple.bind (runOp_stay hv.1) ?_
    intro _
    xintro b' lo' hi' ws' h
    obtain ⟨a1, a2, a3⟩ := keep_step (st := ⟨lo, hi, ws⟩) (st' := ⟨lo', hi', ws'⟩) hv.1 hw hj h.1
    obtain rfl := h.2 a3
    refine Triple.post (ih a1 (hv.2 _ h.1) (hk _ h.1)) ?_
    intro _
    xintro lo'' hi'' ws'' h'
    xexists lo'', hi'', ws''
    cancel
    exact ⟨h'.1, h'.2.1.trans a2, Steps.cons h.1 h'.2.2⟩

/-- **Deques**: if every operation keeps the element with index `i`, whose index is `k` at the end, then the reference taken at the beginning is the reference to element `k` at the end,
and this is still the same element. -/
theorem C94_deque {i k : Nat} {w : W} {ops : List Op} (hw : ws[i]? = some w) (hv : ValidOps e R ρ ops ⟨lo, hi, ws⟩) (hk : KeepsAll e.dflt ρ nf ops ⟨lo, hi, ws⟩ i k) :
    Triple nf (isDeq e v b lo hi ws ∗ R) (do
        let p ← at_ v i
        runOps T v ops
        let q ← at_ v k
        pure (p, q))
      (fun r => ∃ₛ lo' hi' ws', ⌜r.1 = r.2 ∧ ws'[k]? = some w ∧ Steps e.dflt ρ nf ops ⟨lo, hi, ws⟩ ⟨lo', hi', ws'⟩⌝ ∗ isDeq e v b lo' hi' ws' ∗ R) := by
  call (lift (e := e) (at_spec (v := v)))
  intro p
  xsub
  refine Triple.bind (runOps_stay hw hv hk) ?_
  intro _
  xintro lo' hi' ws' h
  call (lift (e := e) (at_spec (v := v)))
  intro q
  xsub
  apply Triple.ret
  xexists lo', hi', ws'
  cancel
  exact ⟨by rw [show 1 + lo + i = 1 + lo' + k by omega], h.1, h.2.2⟩

/-- the history `pop_front, push_front, pop_back, push_back` keeps the second of three elements, whatever the storage: its index is 0 after the first operation and 1 after the others -/
theorem roundabout {x y z w : W} {a : Loc} (ha : a.1 ≠ 0) (lo hi : Nat) :
    ValidOps e (cell e a w ∗ R) (fun _ => w) [.popFront, .pushFront a, .popBack, .pushBack a] ⟨lo, hi, [x, y, z]⟩ ∧
      KeepsAll e.dflt (fun _ => w) nf [.popFront, .pushFront a, .popBack, .pushBack a] ⟨lo, hi, [x, y, z]⟩ 1 1 := by
  have h1 : ∀ st' : St W, Step e.dflt (fun _ => w) nf .popFront ⟨lo, hi, [x, y, z]⟩ st' → st' = ⟨lo + 1, hi, [y, z]⟩ := by
    intro st' h
    rw [show st' = _ from h, if_neg (by simp)]; rfl
  have h2 : ∀ st' : St W, Step e.dflt (fun _ => w) nf (.pushFront a) ⟨lo + 1, hi, [y, z]⟩ st' → st' = ⟨lo, hi, [w, y, z]⟩ := by
    rintro ⟨l, h, s⟩ ⟨⟨h1, h3⟩ | ⟨_, h1, _⟩, h2, _⟩
    · have h4 := h2 (by simp)
      have h5 := h3 (by simp)
      dsimp only at h1 h4
      subst h1 h4
      simp [St.cap] at h5
      simp; omega
    · simp at h1
  have h3 : ∀ st' : St W, Step e.dflt (fun _ => w) nf .popBack ⟨lo, hi, [w, y, z]⟩ st' → st' = ⟨lo, hi + 1, [w, y]⟩ := by
    intro st' h
    rw [show st' = _ from h, if_neg (by simp)]; rfl
  refine ⟨⟨trivial, fun s1 e1 => ?_⟩, ⟨0, by simp [keep], fun s1 e1 => ?_⟩⟩
  · rw [h1 _ e1]
    refine ⟨⟨⟨ha, R, rfl⟩, Or.inr (Or.inr (by simp))⟩, fun s2 e2 => ?_⟩
    rw [h2 _ e2]
    refine ⟨trivial, fun s3 e3 => ?_⟩
    rw [h3 _ e3]
    exact ⟨⟨⟨ha, R, rfl⟩, Or.inr (Or.inr (by simp))⟩, fun _ _ => trivial⟩
  · rw [h1 _ e1]
    refine ⟨1, by simp [keep], fun s2 e2 => ?_⟩
    rw [h2 _ e2]
    refine ⟨1, by simp [keep], fun s3 e3 => ?_⟩
    rw [h3 _ e3]
    exact ⟨1, by simp [keep], fun _ _ => rfl⟩

/-- and the API makes memories with such a deque and such an object -/
example : ∃ (m : Mem Nat) (v b lo hi : Addr) (R : HProp Nat),
    (isDeq (T := fun _ => plainOps intTy) (ty := 1) (plainSpec (nf := True) intTy) v b lo hi [3, 1, 2] ∗ cell (plainSpec (nf := True) intTy) (1, 1) 3 ∗ R) m.cells ∧
    ValidOps (plainSpec (nf := True) intTy) (cell (plainSpec (nf := True) intTy) (1, 1) 3 ∗ R) (fun _ => 3)
      [.popFront, .pushFront (1, 1), .popBack, .pushBack (1, 1)] ⟨lo, hi, [3, 1, 2]⟩ ∧
    KeepsAll (plainSpec (nf := True) intTy).dflt (fun _ => 3) True [.popFront, .pushFront (1, 1), .popBack, .pushBack (1, 1)] ⟨lo, hi, [3, 1, 2]⟩ 1 1 := by
  obtain ⟨m, v, b, lo, hi, _, hm⟩ := exists_deq (V := Nat) intTy 1 (by simp) [3, 1, 2] (by simp)
  obtain ⟨h1, h2⟩ := roundabout (T := fun _ => plainOps intTy) (ty := 1) (e := plainSpec (nf := True) intTy) (R := live (plainSpec (nf := True) intTy) 1 2 [1, 2])
    (x := 3) (y := 1) (z := 2) (w := 3) (a := (1, 1)) (by simp) lo hi
  exact ⟨m, v, b, lo, hi, _, hm, h1, h2⟩

end CC.Deq
