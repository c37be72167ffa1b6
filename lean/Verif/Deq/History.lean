import Verif.Deq.Spec3
/-!
# Histories of deque operations
-/
namespace CC.Deq
open CC CC.Tac
open CC.Vec (arg_cell CanCopy arg_null)
variable {V W : Type}

/-- A public operation.  Positions are indices (`c_deque_begin` advanced by `i`); `a : Loc` is a `c_ref_t` argument living outside the deque. -/
inductive Op where
  | pushBack (a : Loc)
  | pushFront (a : Loc)
  | popBack
  | popFront
  | insert (i : Nat) (a : Loc)
  | insertN (i n : Nat) (a : Loc)
  | erase (i : Nat)
  | eraseRange (i j : Nat)
  | clear
  | resize (n : Nat)
  | resizeWithValue (n : Nat) (a : Loc)
  | shrinkToFit

/-- the iterator at position `i` -/
def iterAt (v : Addr) (i : Nat) : M V Loc := do
  let p ← dbegin v
  pure (padd p i)

/-- the client program for one operation -/
def runOp (T : Nat → Ops V) (v : Addr) : Op → M V Unit
  | .pushBack a => pushBack T v a
  | .pushFront a => pushFront T v a
  | .popBack => popBack T v
  | .popFront => popFront T v
  | .insert i a => do
    let p ← iterAt v i
    let _ ← insert T v p a
    pure ()
  | .insertN i n a => do
    let p ← iterAt v i
    let _ ← insertN T v p n a
    pure ()
  | .erase i => do
    let p ← iterAt v i
    let _ ← erase T v p
    pure ()
  | .eraseRange i j => do
    let p ← iterAt v i
    let q ← iterAt v j
    let _ ← eraseRange T v p q
    pure ()
  | .clear => clear T v
  | .resize n => resize T v n
  | .resizeWithValue n a => resizeWithValue T v n a
  | .shrinkToFit => shrinkToFit T v

def runOps (T : Nat → Ops V) (v : Addr) : List Op → M V Unit
  | [] => pure ()
  | op :: ops => do
    runOp T v op
    runOps T v ops

/-- state of a deque: free slots in front, contents, free slots behind -/
structure St (W : Type) where
  lo : Nat
  hi : Nat
  ws : List W

/-- all slots -/
def St.cap (st : St W) : Nat := st.lo + st.ws.length + st.hi

/-- An edit that adds `k` elements and has `room` free slots it can use: the new contents (in the same storage if there is room); or nothing changed,
only if the allocator can fail and room was missing. -/
def Edit (nf : Prop) (k room : Nat) (st : St W) (ws' : List W) (st' : St W) : Prop :=
  (st'.ws = ws' ∧ (k ≤ room → st'.cap = st.cap)) ∨ (¬ nf ∧ room < k ∧ st' = st)

/-- The storage was reallocated for one more element: twice as many slots (at least two more than there are elements), and the free ones
divided evenly. -/
def Regrown (st : St W) (lo' hi' : Nat) : Prop :=
  lo' + st.ws.length + hi' = max (2 * st.cap) (st.ws.length + 2) ∧ lo' ≤ hi' ∧ hi' ≤ lo' + 1

/-- What adding `k` elements at a position may do to the free slots: if there is room, neither end loses more than `k` of them, and the back
serves alone if it can, otherwise the front if it can; otherwise the storage is doubled, or enlarged to
`extra` slots more than there were elements. -/
def Spare (k extra : Nat) (st st' : St W) : Prop :=
  (k ≤ st.lo + st.hi → st.lo ≤ st'.lo + k ∧ st.hi ≤ st'.hi + k ∧ (k ≤ st.hi → st'.lo = st.lo) ∧ (st.hi < k → k ≤ st.lo → st'.hi = st.hi)) ∧
  (st.lo + st.hi < k → st' = st ∨ st'.cap = max (2 * st.cap) (st.ws.length + extra))

/-- What an operation may do to the contents and the free space.  `ρ a` is the value at the argument location `a`; `nf` says that the allocator
never fails. -/
def Step (dflt : W) (ρ : Loc → W) (nf : Prop) : Op → St W → St W → Prop
  | .pushBack a, st, st' => Edit nf 1 st.hi st (st.ws ++ [ρ a]) st' ∧ (0 < st.hi → st'.lo = st.lo) ∧
      (st.hi = 0 → st' = st ∨ Regrown st st'.lo (st'.hi + 1))
  | .pushFront a, st, st' => Edit nf 1 st.lo st (ρ a :: st.ws) st' ∧ (0 < st.lo → st'.hi = st.hi) ∧
      (st.lo = 0 → st' = st ∨ Regrown st (st'.lo + 1) st'.hi)
  | .popBack, st, st' => st' = if st.ws = [] then st else ⟨st.lo, st.hi + 1, st.ws.dropLast⟩
  | .popFront, st, st' => st' = if st.ws = [] then st else ⟨st.lo + 1, st.hi, st.ws.tail⟩
  | .insert i a, st, st' => Edit nf 1 (st.lo + st.hi) st (st.ws.take i ++ ρ a :: st.ws.drop i) st' ∧ Spare 1 (2 * (1 - (st.lo + st.hi))) st st'
  | .insertN i n a, st, st' => Edit nf n (st.lo + st.hi) st (st.ws.take i ++ List.replicate n (ρ a) ++ st.ws.drop i) st' ∧
      Spare n (2 * (n - (st.lo + st.hi))) st st'
  | .erase i, st, st' => st' = if i < st.ws.length then ⟨st.lo, st.hi + 1, st.ws.eraseIdx i⟩ else st
  | .eraseRange i j, st, st' => st' = ⟨st.lo, st.hi + (j - i), st.ws.take i ++ st.ws.drop j⟩
  | .clear, st, st' => st'.ws = [] ∧ st'.cap = st.cap ∧ (if st.ws = [] then st' = st else st'.lo = st.cap / 2)
  | .resize n, st, st' => Edit nf (n - st.ws.length) (st.lo + st.hi) st (st.ws.take n ++ List.replicate (n - st.ws.length) dflt) st' ∧
      Spare (n - st.ws.length) (2 * (n - st.ws.length)) st st'
  | .resizeWithValue n a, st, st' => Edit nf (n - st.ws.length) (st.lo + st.hi) st (st.ws.take n ++ List.replicate (n - st.ws.length) (ρ a)) st' ∧
      Spare (n - st.ws.length) (2 * (n - st.ws.length)) st st'
  | .shrinkToFit, st, st' => st'.ws = st.ws ∧ (st'.cap = st.ws.length ∨ (¬ nf ∧ st' = st))

/-- the environment `R` contains a constructed object with value `w` at `a` -/
def Holds {nf : Prop} {o : Ops V} (e : ElemSpec nf o W) (R : HProp V) (a : Loc) (w : W) : Prop :=
  a.1 ≠ 0 ∧ ∃ R', R = (cell e a w ∗ R')

/-- `k` elements fit into `room` slots, or the elements may be relocated bitwise (plain data, or there are none yet) -/
def Fits {nf : Prop} {o : Ops V} (e : ElemSpec nf o W) (k room : Nat) (st : St W) : Prop :=
  e.Plain ∨ st.ws = [] ∨ k ≤ room

/-- The positions of the operation are valid, its value arguments are live objects outside the deque; a reallocation must not be necessary
unless the elements can be relocated bitwise (`Fits`, always true for plain data). -/
def Valid {nf : Prop} {o : Ops V} (e : ElemSpec nf o W) (R : HProp V) (ρ : Loc → W) (st : St W) : Op → Prop
  | .pushBack a => Holds e R a (ρ a) ∧ Fits e 1 st.hi st
  | .pushFront a => Holds e R a (ρ a) ∧ Fits e 1 st.lo st
  | .insert i a => i ≤ st.ws.length ∧ Holds e R a (ρ a) ∧ Fits e 1 (st.lo + st.hi) st
  | .insertN i n a => i ≤ st.ws.length ∧ Holds e R a (ρ a) ∧ Fits e n (st.lo + st.hi) st
  | .eraseRange i j => i ≤ j ∧ j ≤ st.ws.length
  | .resize n => Fits e (n - st.ws.length) (st.lo + st.hi) st
  | .resizeWithValue n a => Holds e R a (ρ a) ∧ Fits e (n - st.ws.length) (st.lo + st.hi) st
  | .shrinkToFit => e.Plain ∨ st.ws = [] ∨ (st.lo = 0 ∧ st.hi = 0)
  | _ => True

variable {nf : Prop} {T : Nat → Ops V} {ty : Nat} {e : ElemSpec nf (T ty) W}
variable {v b lo hi : Nat} {ws : List W} {R : HProp V} {ρ : Loc → W}

theorem iterAt_spec {i : Nat} :
    Triple nf (isDeq e v b lo hi ws) (iterAt v i) (fun r => ⌜r = (b, 1 + lo + i)⌝ ∗ isDeq e v b lo hi ws) := by
  unfold iterAt
  call (lift (e := e) (dbegin_spec (v := v)))
  intro r
  xsub
  apply Triple.ret
  cancel

theorem edit_of_res {k b' lo' hi' : Nat} {ws1 ws' : List W} (hl : ws1.length = ws.length + k) (h : Res nf k b lo hi ws ws1 b' lo' hi' ws') :
    Edit nf k (lo + hi) ⟨lo, hi, ws⟩ ws1 ⟨lo', hi', ws'⟩ := by
  rcases h with ⟨rfl, h⟩ | ⟨h1, h2, rfl, _, rfl, rfl⟩
  · refine Or.inl ⟨rfl, fun hk => ?_⟩
    have := (h hk).2
    simp only [St.cap]
    omega
  · exact Or.inr ⟨h1, h2, rfl⟩

theorem spare_of_room {k extra lo' hi' : Nat} {ws' : List W} (h : Room nf k (extra * 2) lo hi ws lo' hi' ws') : Spare k (2 * extra) ⟨lo, hi, ws⟩ ⟨lo', hi', ws'⟩ := by
  refine ⟨h.1, fun hk => ?_⟩
  rcases h.2 hk with ⟨rfl, rfl, rfl, _⟩ | h
  · exact Or.inl rfl
  · refine Or.inr ?_
    unfold CC.Vec.newCap at h
    simp only [St.cap]
    split at h <;> omega

theorem regrown_of {l' h' : Nat} (h : l' = Grown lo ws.length hi ∧ l' + ws.length + h' = CC.Vec.newCap (lo + ws.length + hi) 2 ws.length) :
    Regrown ⟨lo, hi, ws⟩ l' h' := by
  obtain ⟨h1, h2⟩ := h
  unfold Regrown St.cap
  unfold Grown at h1
  rw [← h2] at h1
  unfold CC.Vec.newCap at h2
  dsimp only
  split at h2 <;> omega

/-- resize, for an argument that may be NULL -/
theorem resize_any {count : Nat} {value : Loc} {w : W} (hp : e.Plain ∨ ws = [] ∨ count - ws.length ≤ lo + hi) :
    Triple nf (isDeq e v b lo hi ws ∗ CC.Vec.arg e value w) (resizeWithValue T v count value)
      (fun _ => ∃ₛ b' lo' hi' ws', ⌜Edit nf (count - ws.length) (lo + hi) ⟨lo, hi, ws⟩
          (ws.take count ++ List.replicate (count - ws.length) w) ⟨lo', hi', ws'⟩ ∧
          Spare (count - ws.length) (2 * (count - ws.length)) ⟨lo, hi, ws⟩ ⟨lo', hi', ws'⟩⌝ ∗ isDeq e v b' lo' hi' ws' ∗ CC.Vec.arg e value w) := by
  by_cases hlt : ws.length < count
  · refine Triple.post (resize_grow_full hlt hp) ?_
    intro _
    xintro b' lo' hi' ws' h
    xexists b', lo', hi', ws'
    cancel
    rw [List.take_of_length_le (by omega)]
    exact ⟨edit_of_res (by simp) h.1, spare_of_room h.2.2⟩
  · obtain ⟨X, Y, rfl, rfl⟩ : ∃ X Y, ws = X ++ Y ∧ X.length = count := ⟨ws.take count, ws.drop count, by simp, by simp; omega⟩
    call (resize_shrink (e := e) (v := v) (b := b) (lo := lo) (hi := hi) (X := X) (Y := Y))
    intro _
    xexists b, lo, hi + Y.length, X
    cancel
    refine ⟨Or.inl ⟨?_, fun _ => ?_⟩, fun _ => ?_, fun h => ?_⟩
    · show X = _
      simp
    · simp [St.cap]; omega
    · exact ⟨by dsimp only; omega, by dsimp only; omega, fun _ => rfl, fun h => by simp at h⟩
    · simp at h

theorem runOp_spec {op : Op} (hv : Valid e R ρ ⟨lo, hi, ws⟩ op) :
    Triple nf (isDeq e v b lo hi ws ∗ R) (runOp T v op)
      (fun _ => ∃ₛ b' lo' hi' ws', ⌜Step e.dflt ρ nf op ⟨lo, hi, ws⟩ ⟨lo', hi', ws'⟩⌝ ∗ isDeq e v b' lo' hi' ws' ∗ R) := by
  have hins : ∀ (i n : Nat) (a : Loc), i ≤ ws.length → Holds e R a (ρ a) → Fits e n (lo + hi) ⟨lo, hi, ws⟩ →
      Triple nf (isDeq e v b lo hi ws ∗ R) (do
          let p ← iterAt v i
          let _ ← insertN T v p n a
          pure ())
        (fun _ => ∃ₛ b' lo' hi' ws', ⌜Edit nf n (lo + hi) ⟨lo, hi, ws⟩ (ws.take i ++ List.replicate n (ρ a) ++ ws.drop i) ⟨lo', hi', ws'⟩ ∧
            Spare n (2 * (n - (lo + hi))) ⟨lo, hi, ws⟩ ⟨lo', hi', ws'⟩⌝ ∗
          isDeq e v b' lo' hi' ws' ∗ R) := by
    intro i n a hi' ha hf
    obtain ⟨ha0, R', rfl⟩ := ha
    call (iterAt_spec (v := v))
    intro r
    xsub
    obtain ⟨X, Y, rfl, rfl⟩ : ∃ X Y, ws = X ++ Y ∧ X.length = i := ⟨ws.take i, ws.drop i, by simp, by simp; omega⟩
    call (insertN_full (e := e) (v := v) (b := b) (lo := lo) (hi := hi) (X := X) (Y := Y) (count := n) (value := a) (w := ρ a) ha0 hf)
    intro r
    xintro b' lo' hi' ws' h
    apply Triple.ret
    xexists b', lo', hi', ws'
    cancel
    rw [List.take_left, List.drop_left]
    exact ⟨edit_of_res (by simp; omega) h.1, spare_of_room h.2.2⟩
  cases op with
  | pushBack a =>
    obtain ⟨⟨ha0, R', rfl⟩, hf⟩ := hv
    call (pushBack_full (e := e) (v := v) (b := b) (lo := lo) (hi := hi) (ws := ws) (value := a) (w := ρ a) ha0 hf)
    intro _
    xintro b' lo' hi' ws' h
    xexists b', lo', hi', ws'
    cancel
    rcases h with ⟨rfl, h, hg⟩ | ⟨h1, h2, rfl, rfl, rfl, rfl⟩
    · refine ⟨Or.inl ⟨rfl, fun hk => ?_⟩, fun hk => (h hk).2.1, fun hk => Or.inr (regrown_of (hg hk))⟩
      have := h hk
      simp only [St.cap, List.length_append, List.length_singleton]
      omega
    · exact ⟨Or.inr ⟨h1, by simp only; omega, rfl⟩, fun _ => rfl, fun _ => Or.inl rfl⟩
  | pushFront a =>
    obtain ⟨⟨ha0, R', rfl⟩, hf⟩ := hv
    call (pushFront_full (e := e) (v := v) (b := b) (lo := lo) (hi := hi) (ws := ws) (value := a) (w := ρ a) ha0 hf)
    intro _
    xintro b' lo' hi' ws' h
    xexists b', lo', hi', ws'
    cancel
    rcases h with ⟨rfl, h, hg⟩ | ⟨h1, h2, rfl, rfl, rfl, rfl⟩
    · refine ⟨Or.inl ⟨rfl, fun hk => ?_⟩, fun hk => (h hk).2.2, fun hk => Or.inr (regrown_of (hg hk))⟩
      have := h hk
      simp only [St.cap, List.length_cons]
      omega
    · exact ⟨Or.inr ⟨h1, by simp only; omega, rfl⟩, fun _ => rfl, fun _ => Or.inl rfl⟩
  | popBack =>
    rcases List.eq_nil_or_concat ws with rfl | ⟨ws, w, rfl⟩
    · call (popBack_nil (v := v))
      intro _
      xexists b, lo, hi, []
      cancel
    · simp only [List.concat_eq_append] at *
      call (popBack_spec (v := v))
      intro _
      xexists b, lo, hi + 1, ws
      cancel
      simp [Step]
  | popFront =>
    cases ws with
    | nil =>
      call (popFront_nil (v := v))
      intro _
      xexists b, lo, hi, []
      cancel
    | cons w ws =>
      call (popFront_spec (v := v))
      intro _
      xexists b, lo + 1, hi, ws
      cancel
  | insert i a =>
    obtain ⟨h1, h2, h3⟩ := hv
    refine Triple.post (hins i 1 a h1 h2 h3) ?_
    intro _
    xintro b' lo' hi' ws' h
    xexists b', lo', hi', ws'
    cancel
    simpa [Step] using h
  | insertN i n a =>
    obtain ⟨h1, h2, h3⟩ := hv
    exact hins i n a h1 h2 h3
  | erase i =>
    unfold runOp
    dsimp only
    call (iterAt_spec (v := v))
    intro r
    xsub
    rcases Nat.lt_or_ge i ws.length with hi' | hi'
    · obtain ⟨X, w, Y, rfl, rfl⟩ : ∃ X w Y, ws = X ++ w :: Y ∧ X.length = i :=
        ⟨ws.take i, ws[i], ws.drop (i+1), by simp, by simp; omega⟩
      call (erase_spec (v := v))
      intro r
      xsub
      apply Triple.ret
      xexists b, lo, hi + 1, X ++ Y
      cancel
      show (⟨_, _, _⟩ : St W) = if _ then _ else _
      rw [if_pos hi']
      simp [List.eraseIdx_append]
    · call (erase_invalid (v := v) (b := b) (lo := lo) (hi := hi) (ws := ws) (p := (b, 1 + lo + i)) (by simp; omega))
      intro r
      xsub
      apply Triple.ret
      xexists b, lo, hi, ws
      cancel
      show (⟨_, _, _⟩ : St W) = if _ then _ else _
      rw [if_neg (by simp only; omega)]
  | eraseRange i j =>
    obtain ⟨h1, h2⟩ : i ≤ j ∧ j ≤ ws.length := hv
    unfold runOp
    dsimp only
    call (iterAt_spec (v := v))
    intro r
    xsub
    call (iterAt_spec (v := v))
    intro r
    xsub
    obtain ⟨X, Y, Z, rfl, rfl, rfl⟩ : ∃ X Y Z, ws = X ++ Y ++ Z ∧ X.length = i ∧ X.length + Y.length = j := by
      refine ⟨ws.take i, (ws.drop i).take (j - i), ws.drop j, ?_, by simp; omega, by simp; omega⟩
      rw [List.append_assoc]
      rw [show ws.drop j = (ws.drop i).drop (j - i) by rw [List.drop_drop]; congr 1; omega, List.take_append_drop, List.take_append_drop]
    rw [← Nat.add_assoc]
    call (eraseRange_spec (v := v))
    intro r
    xsub
    apply Triple.ret
    xexists b, lo, hi + Y.length, X ++ Z
    cancel
    show (⟨_, _, _⟩ : St W) = ⟨_, _, _⟩
    simp [List.drop_append, List.append_assoc]
  | clear =>
    call (clear_any (v := v))
    intro _
    xexists b, _, _, []
    cancel
    refine ⟨rfl, ?_, ?_⟩
    · have := clear_sum (lo := lo) (hi := hi) (ws := ws)
      simp [St.cap]
      omega
    · unfold clearLo clearHi
      by_cases h : ws = []
      · subst h; simp
      · simp only [if_neg h, St.cap]
  | resize n =>
    unfold runOp resize
    dsimp only
    have := resize_any (e := e) (v := v) (b := b) (lo := lo) (hi := hi) (ws := ws) (count := n) (value := (0, 0)) (w := e.dflt) hv
    rw [arg_null rfl] at this
    call this
    · rfl
    intro _
    xintro b' lo' hi' ws' h _
    xexists b', lo', hi', ws'
    cancel
  | resizeWithValue n a =>
    obtain ⟨⟨ha0, R', rfl⟩, hf⟩ := hv
    unfold runOp
    dsimp only
    have := resize_any (e := e) (v := v) (b := b) (lo := lo) (hi := hi) (ws := ws) (count := n) (value := a) (w := ρ a) hf
    rw [arg_cell ha0] at this
    call this
    intro _
    xintro b' lo' hi' ws' h
    xexists b', lo', hi', ws'
    cancel
  | shrinkToFit =>
    unfold runOp
    dsimp only
    call (shrinkToFit_spec (e := e) (v := v) (b := b) (lo := lo) (hi := hi) (ws := ws) hv)
    intro _
    xintro b' lo' hi' h
    xexists b', lo', hi', ws
    cancel
    refine ⟨rfl, ?_⟩
    rcases h with ⟨rfl, rfl⟩ | ⟨h1, rfl, rfl, rfl⟩
    · left; simp [St.cap]
    · exact Or.inr ⟨h1, rfl⟩

/-- all ways a history may change a deque -/
inductive Steps (dflt : W) (ρ : Loc → W) (nf : Prop) : List Op → St W → St W → Prop
  | nil (st : St W) : Steps dflt ρ nf [] st st
  | cons {op : Op} {ops : List Op} {s1 s2 s3 : St W} : Step dflt ρ nf op s1 s2 → Steps dflt ρ nf ops s2 s3 → Steps dflt ρ nf (op :: ops) s1 s3

/-- A history is valid if each operation is valid in every state the previous ones can lead to. -/
def ValidOps {o : Ops V} (e : ElemSpec nf o W) (R : HProp V) (ρ : Loc → W) : List Op → St W → Prop
  | [], _ => True
  | op :: ops, st => Valid e R ρ st op ∧ ∀ st', Step e.dflt ρ nf op st st' → ValidOps e R ρ ops st'

theorem runOps_spec {ops : List Op} (hv : ValidOps e R ρ ops ⟨lo, hi, ws⟩) :
    Triple nf (isDeq e v b lo hi ws ∗ R) (runOps T v ops)
      (fun _ => ∃ₛ b' lo' hi' ws', ⌜Steps e.dflt ρ nf ops ⟨lo, hi, ws⟩ ⟨lo', hi', ws'⟩⌝ ∗ isDeq e v b' lo' hi' ws' ∗ R) := by
  induction ops generalizing b lo hi ws with
  | nil =>
    rw [runOps]
    apply Triple.ret
    xexists b, lo, hi, ws
    cancel
    exact Steps.nil _
  | cons op ops ih =>
    rw [runOps]
    refine Triple.bind (runOp_spec hv.1) ?_
    intro _
    xintro b' lo' hi' ws' h
    refine Triple.post (ih (hv.2 _ h)) ?_
    intro _
    xintro b'' lo'' hi'' ws'' h'
    xexists b'', lo'', hi'', ws''
    cancel
    exact Steps.cons h h'

end CC.Deq
