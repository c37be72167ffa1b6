import Verif.Props.CVector
import Verif.Props.CDeque
/-!
# C69: the storage a container holds is bounded by what it has held

Vectors never hold more than twice the slots of the largest size they ever had (or what they started with). Deques do not have such a bound:
used as a queue, with one or two elements at any time, a deque grows without end (`C69_deque_fifo_violated`).
-/
namespace CC.Vec
open CC.Tac
variable {V W : Type} {nf : Prop} {T : Nat → Ops V} {ty : Nat} {e : ElemSpec nf (T ty) W}
variable {v b cap : Nat} {ws : List W} {R : HProp V} {ρ : Loc → W}

/-- in every state the history can pass through there are at most `m` elements -/
def Peak (dflt : W) (ρ : Loc → W) (nf : Prop) (m : Nat) : List Op → St W → Prop
  | [], st => st.ws.length ≤ m
  | op :: ops, st => st.ws.length ≤ m ∧ ∀ st', Step dflt ρ nf op st st' → Peak dflt ρ nf m ops st'

theorem Peak.now {dflt : W} {m : Nat} {ops : List Op} {st : St W} (h : Peak dflt ρ nf m ops st) : st.ws.length ≤ m := by
  cases ops with
  | nil => exact h
  | cons op ops => exact h.1

theorem edit_cap {need m : Nat} {st st' : St W} {ws' : List W} (h : Edit nf need st ws' st') (hl : need ≤ ws'.length) (hm : st'.ws.length ≤ m) :
    st'.cap ≤ max st.cap (2 * m) := by
  rcases h with ⟨rfl, h1, h2⟩ | ⟨_, _, rfl⟩
  · by_cases hn : need ≤ st.cap
    · have := h1 hn; omega
    · have := h2 (by omega); omega
  · omega

theorem step_cap {dflt : W} {op : Op} {m : Nat} {st st' : St W} (h : Step dflt ρ nf op st st') (hm : st'.ws.length ≤ m) :
    st'.cap ≤ max st.cap (2 * m) := by
  cases op with
  | pushBack a => exact edit_cap h (by simp) hm
  | pushBackAlias j => obtain ⟨w, _, rfl⟩ := h; exact Nat.le_max_left _ _
  | popBack => rw [show st' = _ from h]; exact Nat.le_max_left _ _
  | insert i a => exact edit_cap h (by simp; omega) hm
  | insertN i n a => exact edit_cap h (by simp; omega) hm
  | erase i => rw [show st' = _ from h]; exact Nat.le_max_left _ _
  | eraseRange i j => rw [show st' = _ from h]; exact Nat.le_max_left _ _
  | clear => rw [show st' = _ from h]; exact Nat.le_max_left _ _
  | resize n => exact edit_cap h (by simp; omega) hm
  | resizeWithValue n a => exact edit_cap h (by simp; omega) hm
  | reserve n =>
    by_cases hc : st.cap < n
    · exact edit_cap h (by rw [if_pos hc]; simp; omega) hm
    · rcases h with ⟨h0, h1, h2⟩ | ⟨_, _, rfl⟩
      · have := h1 (by omega); omega
      · omega
  | shrinkToFit =>
    obtain ⟨h1, h2 | ⟨_, rfl⟩⟩ := h
    · rw [h1] at hm; omega
    · omega

theorem steps_cap {dflt : W} {ops : List Op} {m : Nat} {st st' : St W} (h : Steps dflt ρ nf ops st st') (hk : Peak dflt ρ nf m ops st) :
    st'.cap ≤ max st.cap (2 * m) := by
  induction h with
  | nil => exact Nat.le_max_left _ _
  | cons h1 _ ih =>
    have h2 := hk.2 _ h1
    have := ih h2
    have := step_cap h1 h2.now
    omega

/-- After any valid history in which the vector never had more than `m` elements, its capacity is at most `2 * m` or what it was at the start. -/
theorem C69_vector_history {ops : List Op} {m : Nat} (hv : ValidOps e R ρ ops ⟨cap, ws⟩) (hk : Peak e.dflt ρ nf m ops ⟨cap, ws⟩) :
    Triple nf (isVec e v b cap ws ∗ R) (do runOps T v ops; capacity v)
      (fun c => ∃ₛ b' ws', ⌜Steps e.dflt ρ nf ops ⟨cap, ws⟩ ⟨c, ws'⟩ ∧ ws'.length ≤ c ∧ c ≤ max cap (2 * m)⌝ ∗ isVec e v b' c ws' ∗ R) := by
  refine Triple.bind (C16_history hv) ?_
  intro _
  xintro b' cap' ws' h
  apply Triple.fact (p := ws'.length ≤ cap')
  · intro h hh
    exact vec_cap hh
  intro hle
  call (vcapacity_spec (v := v))
  intro c
  xsub
  xexists b', ws'
  cancel
  exact ⟨h, hle, steps_cap h hk⟩

/-- a history with at most three elements at any time, so that the capacity stays below seven -/
example (ρ : Loc → Nat) : Peak (plainSpec (nf := True) intTy).dflt ρ True 3 [.pushBack (1,1), .pushBack (1,1), .pushBack (1,1), .popBack, .pushBack (1,1)] ⟨0, []⟩ := by
  refine ⟨by simp, fun s1 h1 => ⟨?_, fun s2 h2 => ⟨?_, fun s3 h3 => ⟨?_, fun s4 h4 => ⟨?_, fun s5 h5 => ?_⟩⟩⟩⟩⟩
  all_goals have a1 := (h1.resolve_right (fun h => h.1 trivial)).1
  all_goals dsimp only at a1
  · rw [a1]; simp
  all_goals have a2 := (h2.resolve_right (fun h => h.1 trivial)).1
  all_goals rw [a1] at a2
  · rw [a2]; simp
  all_goals have a3 := (h3.resolve_right (fun h => h.1 trivial)).1
  all_goals rw [a2] at a3
  · rw [a3]; simp
  all_goals rw [show s4 = _ from h4] at *
  · rw [a3]; simp
  · have a5 := (h5.resolve_right (fun h => h.1 trivial)).1
    show s5.ws.length ≤ 3
    rw [a5, a3]; simp

end CC.Vec

namespace CC.Deq
open CC.Tac
open CC.Vec (intTy)
variable {V W : Type} {nf : Prop} {T : Nat → Ops V} {ty : Nat} {e : ElemSpec nf (T ty) W}
variable {v b lo hi : Nat} {ws : List W} {R : HProp V} {ρ : Loc → W}

/-- in every state the history can pass through there are at most `m` elements -/
def Peak (dflt : W) (ρ : Loc → W) (nf : Prop) (m : Nat) : List Op → St W → Prop
  | [], st => st.ws.length ≤ m
  | op :: ops, st => st.ws.length ≤ m ∧ ∀ st', Step dflt ρ nf op st st' → Peak dflt ρ nf m ops st'

theorem Peak.now {dflt : W} {m : Nat} {ops : List Op} {st : St W} (h : Peak dflt ρ nf m ops st) : st.ws.length ≤ m := by
  cases ops with
  | nil => exact h
  | cons op ops => exact h.1

/-- clients that only push, at either end -/
def Growing : Op → Prop
  | .pushBack _ => True
  | .pushFront _ => True
  | _ => False

/-- clients that use one end only, the back -/
def LifoBack : Op → Prop
  | .pushBack _ => True
  | .popBack => True
  | _ => False

/-- clients that use one end only, the front -/
def LifoFront : Op → Prop
  | .pushFront _ => True
  | .popFront => True
  | _ => False

/-- the free slots at either end were half of all free slots when there were `n0` elements -/
def Even (st : St W) : Prop :=
  ∃ n0, n0 ≤ st.ws.length ∧ 2 * st.lo + n0 ≤ st.cap + 1 ∧ 2 * st.hi + n0 ≤ st.cap + 1

theorem push_step {dflt : W} {a : Loc} {st st' : St W} (h : Step dflt ρ nf (.pushBack a) st st') :
    st' = st ∨ (st'.ws.length = st.ws.length + 1 ∧ ((0 < st.hi ∧ st'.lo = st.lo ∧ st'.hi + 1 = st.hi) ∨
      (st.hi = 0 ∧ Regrown st st'.lo (st'.hi + 1)))) := by
  obtain ⟨h1, h2, h3⟩ := h
  rcases h1 with ⟨hw, hc⟩ | ⟨_, _, rfl⟩
  · have hl : st'.ws.length = st.ws.length + 1 := by rw [hw]; simp
    rcases Nat.eq_zero_or_pos st.hi with h0 | h0
    · rcases h3 h0 with rfl | h
      · exact Or.inl rfl
      · exact Or.inr ⟨hl, Or.inr ⟨h0, h⟩⟩
    · have a1 := h2 h0
      have a2 := hc h0
      simp only [St.cap] at a2
      exact Or.inr ⟨hl, Or.inl ⟨h0, a1, by omega⟩⟩
  · exact Or.inl rfl

theorem pushF_step {dflt : W} {a : Loc} {st st' : St W} (h : Step dflt ρ nf (.pushFront a) st st') :
    st' = st ∨ (st'.ws.length = st.ws.length + 1 ∧ ((0 < st.lo ∧ st'.hi = st.hi ∧ st'.lo + 1 = st.lo) ∨
      (st.lo = 0 ∧ Regrown st (st'.lo + 1) st'.hi))) := by
  obtain ⟨h1, h2, h3⟩ := h
  rcases h1 with ⟨hw, hc⟩ | ⟨_, _, rfl⟩
  · have hl : st'.ws.length = st.ws.length + 1 := by rw [hw]; simp
    rcases Nat.eq_zero_or_pos st.lo with h0 | h0
    · rcases h3 h0 with rfl | h
      · exact Or.inl rfl
      · exact Or.inr ⟨hl, Or.inr ⟨h0, h⟩⟩
    · have a1 := h2 h0
      have a2 := hc h0
      simp only [St.cap] at a2
      exact Or.inr ⟨hl, Or.inl ⟨h0, a1, by omega⟩⟩
  · exact Or.inl rfl

theorem growing_step {dflt : W} {op : Op} {st st' : St W} (hg : Growing op) (h : Step dflt ρ nf op st st') (he : Even st) :
    Even st' ∧ st'.cap ≤ max st.cap (4 * st'.ws.length + 2) := by
  obtain ⟨n0, e1, e2, e3⟩ := he
  cases op with
  | pushBack a =>
    rcases push_step h with rfl | ⟨hl, ⟨a1, a2, a3⟩ | ⟨a1, a2, a3, a4⟩⟩
    · exact ⟨⟨n0, e1, e2, e3⟩, Nat.le_max_left _ _⟩
    · simp only [Even, St.cap] at *
      exact ⟨⟨n0, by omega, by omega, by omega⟩, by omega⟩
    · simp only [Even, St.cap] at *
      exact ⟨⟨st.ws.length, by omega, by omega, by omega⟩, by omega⟩
  | pushFront a =>
    rcases pushF_step h with rfl | ⟨hl, ⟨a1, a2, a3⟩ | ⟨a1, a2, a3, a4⟩⟩
    · exact ⟨⟨n0, e1, e2, e3⟩, Nat.le_max_left _ _⟩
    · simp only [Even, St.cap] at *
      exact ⟨⟨n0, by omega, by omega, by omega⟩, by omega⟩
    · simp only [Even, St.cap] at *
      exact ⟨⟨st.ws.length, by omega, by omega, by omega⟩, by omega⟩
  | _ => exact hg.elim

theorem lifo_step {dflt : W} {op : Op} {st st' : St W} (hg : LifoBack op) (h : Step dflt ρ nf op st st') (he : st.lo ≤ st.ws.length + st.hi + 1) :
    st'.lo ≤ st'.ws.length + st'.hi + 1 ∧ st'.cap ≤ max st.cap (4 * st'.ws.length + 2) := by
  cases op with
  | pushBack a =>
    rcases push_step h with rfl | ⟨hl, ⟨a1, a2, a3⟩ | ⟨a1, a2, a3, a4⟩⟩
    · exact ⟨he, Nat.le_max_left _ _⟩
    · simp only [St.cap] at *; omega
    · simp only [St.cap] at *; omega
  | popBack =>
    rw [show st' = _ from h]
    by_cases h0 : st.ws = []
    · rw [if_pos h0]; exact ⟨he, Nat.le_max_left _ _⟩
    · rw [if_neg h0]
      have := List.length_pos_iff.2 h0
      simp only [St.cap, List.length_dropLast]
      omega
  | _ => exact hg.elim

theorem lifoF_step {dflt : W} {op : Op} {st st' : St W} (hg : LifoFront op) (h : Step dflt ρ nf op st st') (he : st.hi ≤ st.ws.length + st.lo + 1) :
    st'.hi ≤ st'.ws.length + st'.lo + 1 ∧ st'.cap ≤ max st.cap (4 * st'.ws.length + 2) := by
  cases op with
  | pushFront a =>
    rcases pushF_step h with rfl | ⟨hl, ⟨a1, a2, a3⟩ | ⟨a1, a2, a3, a4⟩⟩
    · exact ⟨he, Nat.le_max_left _ _⟩
    · simp only [St.cap] at *; omega
    · simp only [St.cap] at *; omega
  | popFront =>
    rw [show st' = _ from h]
    by_cases h0 : st.ws = []
    · rw [if_pos h0]; exact ⟨he, Nat.le_max_left _ _⟩
    · rw [if_neg h0]
      have := List.length_pos_iff.2 h0
      simp only [St.cap, List.length_tail]
      omega
  | _ => exact hg.elim

theorem steps_bound {dflt : W} {I : St W → Prop} {G : Op → Prop}
    (hstep : ∀ op st st', G op → Step dflt ρ nf op st st' → I st → I st' ∧ st'.cap ≤ max st.cap (4 * st'.ws.length + 2))
    {ops : List Op} (hg : ∀ op ∈ ops, G op) {m : Nat} {st st' : St W} (h : Steps dflt ρ nf ops st st') (hk : Peak dflt ρ nf m ops st) (hi : I st) :
    st'.cap ≤ max st.cap (4 * m + 2) := by
  induction h with
  | nil => exact Nat.le_max_left _ _
  | cons h1 _ ih =>
    obtain ⟨i1, i2⟩ := hstep _ _ _ (hg _ (by simp)) h1 hi
    have h2 := hk.2 _ h1
    have := ih (fun op hop => hg op (by simp [hop])) h2 i1
    have := h2.now
    omega

theorem history_bound {I : St W → Prop} {G : Op → Prop}
    (hstep : ∀ op st st', G op → Step e.dflt ρ nf op st st' → I st → I st' ∧ st'.cap ≤ max st.cap (4 * st'.ws.length + 2))
    {ops : List Op} (hg : ∀ op ∈ ops, G op) {m : Nat} (hv : ValidOps e R ρ ops ⟨lo, hi, ws⟩) (hk : Peak e.dflt ρ nf m ops ⟨lo, hi, ws⟩) (hI : I ⟨lo, hi, ws⟩) :
    Triple nf (isDeq e v b lo hi ws ∗ R) (do runOps T v ops; capacity v)
      (fun c => ∃ₛ b' lo' hi' ws', ⌜Steps e.dflt ρ nf ops ⟨lo, hi, ws⟩ ⟨lo', hi', ws'⟩ ∧ c = lo' + ws'.length + hi' ∧
          c ≤ max (lo + ws.length + hi) (4 * m + 2)⌝ ∗ isDeq e v b' lo' hi' ws' ∗ R) := by
  refine Triple.bind (C24_history hv) ?_
  intro _
  xintro b' lo' hi' ws' h
  call (lift (e := e) (capacity_spec (v := v)))
  intro c
  xsub
  xexists b', lo', hi', ws'
  cancel
  exact ⟨h, rfl, steps_bound hstep hg h hk hI⟩

/-- A client that only pushes, at either end, in any order, keeps the capacity below four times the number of elements, plus two (for a deque
whose free space was evenly divided at the start, as in a new one). -/
theorem C69_deque_push_partial {ops : List Op} (hg : ∀ op ∈ ops, Growing op) {m : Nat} (hv : ValidOps e R ρ ops ⟨lo, hi, ws⟩)
    (hk : Peak e.dflt ρ nf m ops ⟨lo, hi, ws⟩) (hI : lo ≤ hi + 1 ∧ hi ≤ lo + 1) :
    Triple nf (isDeq e v b lo hi ws ∗ R) (do runOps T v ops; capacity v)
      (fun c => ∃ₛ b' lo' hi' ws', ⌜Steps e.dflt ρ nf ops ⟨lo, hi, ws⟩ ⟨lo', hi', ws'⟩ ∧ c = lo' + ws'.length + hi' ∧
          c ≤ max (lo + ws.length + hi) (4 * m + 2)⌝ ∗ isDeq e v b' lo' hi' ws' ∗ R) :=
  history_bound (I := Even) (fun _ _ _ h1 h2 h3 => growing_step h1 h2 h3) hg hv hk ⟨ws.length, Nat.le_refl _, by simp only [St.cap]; omega, by simp only [St.cap]; omega⟩

/-- The same for a client that pushes and pops at the back only (a stack). -/
theorem C69_deque_stack_partial {ops : List Op} (hg : ∀ op ∈ ops, LifoBack op) {m : Nat} (hv : ValidOps e R ρ ops ⟨lo, hi, ws⟩)
    (hk : Peak e.dflt ρ nf m ops ⟨lo, hi, ws⟩) (hI : lo ≤ ws.length + hi + 1) :
    Triple nf (isDeq e v b lo hi ws ∗ R) (do runOps T v ops; capacity v)
      (fun c => ∃ₛ b' lo' hi' ws', ⌜Steps e.dflt ρ nf ops ⟨lo, hi, ws⟩ ⟨lo', hi', ws'⟩ ∧ c = lo' + ws'.length + hi' ∧
          c ≤ max (lo + ws.length + hi) (4 * m + 2)⌝ ∗ isDeq e v b' lo' hi' ws' ∗ R) :=
  history_bound (I := fun st => st.lo ≤ st.ws.length + st.hi + 1) (fun _ _ _ h1 h2 h3 => lifo_step h1 h2 h3) hg hv hk hI

/-- The same at the front. (Missing: clients that pop at one end and push at the other, see `C69_deque_fifo_violated`.) -/
theorem C69_deque_stack_front_partial {ops : List Op} (hg : ∀ op ∈ ops, LifoFront op) {m : Nat} (hv : ValidOps e R ρ ops ⟨lo, hi, ws⟩)
    (hk : Peak e.dflt ρ nf m ops ⟨lo, hi, ws⟩) (hI : hi ≤ ws.length + lo + 1) :
    Triple nf (isDeq e v b lo hi ws ∗ R) (do runOps T v ops; capacity v)
      (fun c => ∃ₛ b' lo' hi' ws', ⌜Steps e.dflt ρ nf ops ⟨lo, hi, ws⟩ ⟨lo', hi', ws'⟩ ∧ c = lo' + ws'.length + hi' ∧
          c ≤ max (lo + ws.length + hi) (4 * m + 2)⌝ ∗ isDeq e v b' lo' hi' ws' ∗ R) :=
  history_bound (I := fun st => st.hi ≤ st.ws.length + st.lo + 1) (fun _ _ _ h1 h2 h3 => lifoF_step h1 h2 h3) hg hv hk hI

/-- the most elements an operation may add -/
def added : Op → Nat
  | .pushBack _ => 1
  | .pushFront _ => 1
  | .insert _ _ => 1
  | .insertN _ n _ => n
  | .resize n => n
  | .resizeWithValue n _ => n
  | _ => 0

/-- the most elements a history may add -/
def addedAll : List Op → Nat
  | [] => 0
  | op :: ops => added op + addedAll ops

/-- after adding at most `I` elements to a deque of capacity `c0`: between two reallocations because of an end without room a quarter of the storage must be filled -/
def Linear (c0 I : Nat) (st : St W) : Prop :=
  st.ws.length ≤ I + c0 ∧ (st.cap ≤ 4 * (I + st.lo) + (2 * c0 + 8) ∧ st.cap ≤ 4 * (I + st.hi) + (2 * c0 + 8)) ∧ st.cap ≤ 8 * I + 2 * (2 * c0 + 8)

theorem Linear.more {c0 I I' : Nat} {st : St W} (h : Linear c0 I st) (hI : I ≤ I') : Linear c0 I' st := by
  obtain ⟨h1, ⟨h2, h3⟩, h4⟩ := h
  exact ⟨by omega, ⟨by omega, by omega⟩, by omega⟩

theorem linear_edit {c0 I k extra n : Nat} {st st' : St W} {ws' : List W} (hk : k ≤ n) (hl : ws'.length ≤ st.ws.length + k) (he : Edit nf k (st.lo + st.hi) st ws' st')
    (hs : Spare k extra st st') (hx : extra ≤ 2 * k) (hf : st.lo + st.hi < k → ws'.length = st.ws.length + k) (h : Linear c0 I st) : Linear c0 (I + n) st' := by
  rcases he with ⟨hw, hc⟩ | ⟨_, _, rfl⟩
  · obtain ⟨h1, ⟨h2, h3⟩, h4⟩ := h
    by_cases hr : k ≤ st.lo + st.hi
    · have a1 := hs.1 hr
      have a2 := hc hr
      rw [← hw] at hl
      exact ⟨by omega, ⟨by omega, by omega⟩, by omega⟩
    · rcases hs.2 (by omega) with rfl | a1
      · exact Linear.more ⟨h1, ⟨h2, h3⟩, h4⟩ (by omega)
      · have a2 := hf (by omega)
        rw [← hw] at a2
        have a3 : st.cap = st.lo + st.ws.length + st.hi := rfl
        refine ⟨by omega, ⟨?_, ?_⟩, ?_⟩ <;> omega
  · exact h.more (by omega)

theorem linear_step {dflt : W} {op : Op} {c0 I : Nat} {st st' : St W} (hv : Valid e R ρ st op) (h : Step dflt ρ nf op st st') (hL : Linear c0 I st) : Linear c0 (I + added op) st' := by
  have hL' := hL
  obtain ⟨h1, ⟨h2, h3⟩, h4⟩ := hL'
  cases op with
  | pushBack a =>
    rcases push_step h with rfl | ⟨hl, ⟨a1, a2, a3⟩ | ⟨a1, a2, a3, a4⟩⟩
    · exact hL.more (by omega)
    · simp only [Linear, St.cap, added] at *; omega
    · simp only [Linear, St.cap, added] at *; omega
  | pushFront a =>
    rcases pushF_step h with rfl | ⟨hl, ⟨a1, a2, a3⟩ | ⟨a1, a2, a3, a4⟩⟩
    · exact hL.more (by omega)
    · simp only [Linear, St.cap, added] at *; omega
    · simp only [Linear, St.cap, added] at *; omega
  | popBack =>
    rw [show st' = _ from h]
    by_cases h0 : st.ws = []
    · rw [if_pos h0]; exact hL.more (by omega)
    · rw [if_neg h0]
      have := List.length_pos_iff.2 h0
      simp only [Linear, St.cap, added, List.length_dropLast] at *
      omega
  | popFront =>
    rw [show st' = _ from h]
    by_cases h0 : st.ws = []
    · rw [if_pos h0]; exact hL.more (by omega)
    · rw [if_neg h0]
      have := List.length_pos_iff.2 h0
      simp only [Linear, St.cap, added, List.length_tail] at *
      omega
  | insert i a =>
    have hi : i ≤ st.ws.length := hv.1
    exact linear_edit (k := 1) (Nat.le_refl _) (by simp; omega) h.1 h.2 (by omega) (fun _ => by simp; omega) hL
  | insertN i n a =>
    have hi : i ≤ st.ws.length := hv.1
    exact linear_edit (k := n) (Nat.le_refl _) (by simp; omega) h.1 h.2 (by omega) (fun _ => by simp; omega) hL
  | erase i =>
    rw [show st' = _ from h]
    by_cases h0 : i < st.ws.length
    · rw [if_pos h0]
      have := List.length_eraseIdx_of_lt h0
      simp only [Linear, St.cap, added] at *
      omega
    · rw [if_neg h0]; exact hL.more (by omega)
  | eraseRange i j =>
    obtain ⟨b1, b2⟩ : i ≤ j ∧ j ≤ st.ws.length := hv
    rw [show st' = _ from h]
    simp only [Linear, St.cap, added, List.length_append, List.length_take, List.length_drop] at *
    omega
  | clear =>
    obtain ⟨a1, a2, a3⟩ := h
    by_cases h0 : st.ws = []
    · rw [if_pos h0] at a3
      subst a3
      exact hL.more (by omega)
    · rw [if_neg h0] at a3
      have := congrArg List.length a1
      simp only [Linear, St.cap, added, List.length_nil] at *
      omega
  | resize n => exact linear_edit (k := n - st.ws.length) (by simp only [added]; omega) (by simp; omega) h.1 h.2 (by omega) (fun _ => by simp; omega) hL
  | resizeWithValue n a => exact linear_edit (k := n - st.ws.length) (by simp only [added]; omega) (by simp; omega) h.1 h.2 (by omega) (fun _ => by simp; omega) hL
  | shrinkToFit =>
    obtain ⟨a1, a2 | ⟨_, rfl⟩⟩ := h
    · have := congrArg List.length a1
      refine ⟨by omega, ⟨by omega, by omega⟩, by omega⟩
    · exact hL.more (by omega)

theorem linear_steps {ops : List Op} {c0 I : Nat} {st st' : St W} (hv : ValidOps e R ρ ops st) (h : Steps e.dflt ρ nf ops st st') (hL : Linear c0 I st) :
    Linear c0 (I + addedAll ops) st' := by
  induction h generalizing I with
  | nil => exact hL
  | cons h1 _ ih =>
    have := ih (hv.2 _ h1) (linear_step hv.1 h1 hL)
    rwa [Nat.add_assoc] at this

/-- For every client the storage is linear in the number of elements it has ever added (not in the number of elements there are, see `C69_deque_fifo_violated`): after any valid history
the capacity is at most eight times that number, plus four times the capacity at the start, plus sixteen. -/
theorem C69_deque_history_partial {ops : List Op} (hv : ValidOps e R ρ ops ⟨lo, hi, ws⟩) :
    Triple nf (isDeq e v b lo hi ws ∗ R) (do runOps T v ops; capacity v)
      (fun c => ∃ₛ b' lo' hi' ws', ⌜Steps e.dflt ρ nf ops ⟨lo, hi, ws⟩ ⟨lo', hi', ws'⟩ ∧ c = lo' + ws'.length + hi' ∧
          c ≤ 8 * addedAll ops + 4 * (lo + ws.length + hi) + 16⌝ ∗ isDeq e v b' lo' hi' ws' ∗ R) := by
  refine Triple.bind (C24_history hv) ?_
  intro _
  xintro b' lo' hi' ws' h
  call (lift (e := e) (capacity_spec (v := v)))
  intro c
  xsub
  xexists b', lo', hi', ws'
  cancel
  refine ⟨h, rfl, ?_⟩
  have := (linear_steps (I := 0) (c0 := lo + ws.length + hi) hv h ⟨by simp only; omega, ⟨by simp only [St.cap]; omega, by simp only [St.cap]; omega⟩, by simp only [St.cap]; omega⟩).2.2
  simp only [St.cap] at this
  omega

/-- The bound for a history with every kind of operation: twelve elements are added at most. -/
example (a : Loc) : addedAll [.pushBack a, .pushFront a, .insert 1 a, .insertN 0 3 a, .erase 2, .eraseRange 0 2, .resize 6, .popBack, .popFront, .clear, .shrinkToFit] = 12 := rfl

/-- `n` times: push at the back, pop at the front -/
def rounds (a : Loc) : Nat → List Op
  | 0 => []
  | n + 1 => .pushBack a :: .popFront :: rounds a n

theorem rounds_steps {dflt : W} {a : Loc} {n : Nat} {st st' : St W} (h : Steps dflt ρ True (rounds a n) st st') :
    st'.ws.length = st.ws.length ∧ st.lo + n ≤ st'.lo := by
  induction n generalizing st with
  | zero => cases h; exact ⟨rfl, Nat.le_refl _⟩
  | succ n ih =>
    rw [rounds] at h
    cases h with
    | cons h1 h =>
      cases h with
      | @cons _ _ _ s2 _ h2 h =>
        have := ih h
        have hw := (h1.1.resolve_right (fun h => h.1 trivial)).1
        rename_i s1
        have hne : s1.ws ≠ [] := by rw [hw]; simp
        have h2' : s2 = if s1.ws = [] then s1 else ⟨s1.lo + 1, s1.hi, s1.ws.tail⟩ := h2
        rw [if_neg hne] at h2'
        subst h2'
        dsimp only at this
        rw [List.length_tail] at this
        rcases push_step h1 with rfl | ⟨hl, ⟨a1, a2, a3⟩ | ⟨a1, a2, a3, a4⟩⟩
        · have : s1.ws.length = s1.ws.length + 1 := by
            conv => lhs; rw [hw]
            simp
          omega
        · omega
        · simp only [St.cap] at a2; omega

theorem rounds_valid {a : Loc} {n : Nat} {st : St W} (hp : e.Plain) (ha : Holds e R a (ρ a)) : ValidOps e R ρ (rounds a n) st := by
  induction n generalizing st with
  | zero => trivial
  | succ n ih => exact ⟨⟨ha, Or.inl hp⟩, fun _ _ => ⟨trivial, fun _ _ => ih⟩⟩

/-- `n` rounds of push_back and pop_front leave as many elements as there were, and never more than one more in between, but a capacity of at
least `n`: however small the bound, a client that uses the deque as a queue exceeds it. -/
theorem C69_deque_fifo_violated {e : ElemSpec True (T ty) W} {a : Loc} {w : W} {n : Nat} (hp : e.Plain) (ha : a.1 ≠ 0) :
    Triple True (isDeq e v b lo hi ws ∗ cell e a w) (do runOps T v (rounds a n); capacity v)
      (fun c => ∃ₛ b' lo' hi' ws', ⌜ws'.length = ws.length ∧ c = lo' + ws'.length + hi' ∧ lo + n + ws.length ≤ c⌝ ∗
        isDeq e v b' lo' hi' ws' ∗ cell e a w) := by
  refine Triple.bind (C24_history (ρ := fun _ => w) (rounds_valid hp ⟨ha, emp, by rw [sep_emp]⟩)) ?_
  intro _
  xintro b' lo' hi' ws' h
  call (lift (e := e) (capacity_spec (v := v)))
  intro c
  xsub
  xexists b', lo', hi', ws'
  cancel
  have := rounds_steps h
  dsimp only at this
  omega

/-- A whole program: create, one push, `n` rounds. At the end there is one element, and there are `n` or more slots. -/
theorem C69_deque_program_violated {e : ElemSpec True (T ty) W} {a : Loc} {w : W} {n : Nat} (hp : e.Plain) (hty : ty ≠ 0) (ha : a.1 ≠ 0) :
    Triple True (cell e a w) (do
        let v ← create ty
        pushBack T v a
        runOps T v (rounds a n)
        let k ← size v
        let c ← capacity v
        pure (v, k, c))
      (fun r => ∃ₛ b lo hi ws, ⌜r.2.1 = 1 ∧ n ≤ r.2.2 ∧ r.2.2 = lo + ws.length + hi⌝ ∗ isDeq e r.1 b lo hi ws ∗ cell e a w) := by
  call (create_spec (e := e) hty)
  intro v
  xintro hv
  have hv0 : v ≠ 0 := fun h => hv h trivial
  rw [if_neg hv0]
  call (pushBack_spec (e := e) (v := v) (b := 0) (lo := 0) (hi := 0) (ws := []) (value := a) (w := w) ha (Or.inl hp))
  intro _
  xintro b1 lo1 hi1 ws1 h1
  have hw : ws1 = [w] := by
    rcases h1 with ⟨h, _⟩ | ⟨h, _⟩
    · exact h
    · exact absurd trivial h
  subst hw
  refine Triple.bind (C24_history (ρ := fun _ => w) (rounds_valid hp ⟨ha, emp, by rw [sep_emp]⟩)) ?_
  intro _
  xintro b' lo' hi' ws' h
  call (lift (e := e) (size_spec (v := v)))
  intro k
  xsub
  call (lift (e := e) (capacity_spec (v := v)))
  intro c
  xsub
  apply Triple.ret
  xexists b', lo', hi', ws'
  cancel
  have := rounds_steps h
  dsimp only at this
  simp only [List.length_singleton] at this
  show ws'.length = 1 ∧ n ≤ lo' + ws'.length + hi' ∧ lo' + ws'.length + hi' = lo' + ws'.length + hi'
  omega

/-- a deque with one element and a value to push exist in some memory, so that a thousand rounds leave a thousand slots for one element -/
example : ∃ (m m' : Mem Nat) (v : Addr) (c : Nat), runOps (fun _ => plainOps intTy) v (rounds (1, 1) 1000) m = some (.ok ((), m')) ∧
    1000 ≤ c ∧ ∃ b' lo' hi' ws', lo' + ws'.length + hi' = c ∧ ws'.length = 1 ∧
      ∃ F, (isDeq (T := fun _ => plainOps intTy) (ty := 1) (plainSpec (nf := True) intTy) v b' lo' hi' ws' ∗ F) m'.cells := by
  obtain ⟨m, v, b, lo, hi, ho, hm⟩ := exists_deq (V := Nat) intTy 1 (by simp) [3] (by simp)
  have h := C24_history (T := fun _ => plainOps intTy) (ty := 1) (e := plainSpec (nf := True) intTy) (v := v) (b := b) (lo := lo) (hi := hi) (ws := [3])
    (R := live (plainSpec (nf := True) intTy) 1 1 [3]) (ρ := fun _ => 3) (ops := rounds (1, 1) 1000)
    (rounds_valid (T := fun _ => plainOps intTy) (ty := 1) (e := plainSpec (nf := True) intTy) (a := (1, 1)) (plain_plain _) ⟨by decide, emp, rfl⟩)
  obtain ⟨_, m', h1, _, h2⟩ := h.run (F := emp) (fun _ => ho) (by rw [sep_emp]; exact hm)
  rw [sep_emp] at h2
  obtain ⟨b', lo', hi', ws', h2⟩ := h2
  obtain ⟨h3, h2⟩ := hpure_sep_apply.1 h2
  have := rounds_steps h3
  dsimp only at this
  simp only [List.length_singleton] at this
  exact ⟨m, m', v, lo' + ws'.length + hi', h1, by omega, b', lo', hi', ws', rfl, this.1, _, h2⟩

end CC.Deq
