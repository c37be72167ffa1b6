import Verif.Vec.Spec5
/-!
# Histories of vector operations

Client programs that apply any sequence of public vector operations, and what each operation means on the sequence of values.
-/
namespace CC.Vec
open CC CC.Tac
variable {V W : Type}

/-- A public operation.  Positions are indices (`c_vector_begin` advanced by `i`); `a : Loc` is a `c_ref_t` argument living
outside the vector; `alias j` arguments are references to the vector's own element number `j`. -/
inductive Op where
  | pushBack (a : Loc)
  | pushBackAlias (j : Nat)
  | popBack
  | insert (i : Nat) (a : Loc)
  | insertN (i n : Nat) (a : Loc)
  | erase (i : Nat)
  | eraseRange (i j : Nat)
  | clear
  | resize (n : Nat)
  | resizeWithValue (n : Nat) (a : Loc)
  | reserve (n : Nat)
  | shrinkToFit

/-- the iterator at position `i` -/
def iterAt (v : Addr) (i : Nat) : M V Loc := do
  let p ← vbegin v
  pure (padd p i)

/-- the client program for one operation -/
def runOp (T : Nat → Ops V) (v : Addr) : Op → M V Unit
  | .pushBack a => pushBack T v a
  | .pushBackAlias j => do
    let r ← at_ v j
    pushBack T v r
  | .popBack => popBack T v
  | .insert i a => do
    let p ← iterAt v i
    let _ ← insert T v p a
    pure ()
  | .insertN i n a => do
    let p ← iterAt v i
    let _ ← insertN T v p n a
    pure ()
  | .erase i => do
    let p ← iterAt v i
    let _ ← erase T v p
    pure ()
  | .eraseRange i j => do
    let p ← iterAt v i
    let q ← iterAt v j
    let _ ← eraseRange T v p q
    pure ()
  | .clear => clear T v
  | .resize n => resize T v n
  | .resizeWithValue n a => resizeWithValue T v n a
  | .reserve n => reserve T v n
  | .shrinkToFit => shrinkToFit T v

def runOps (T : Nat → Ops V) (v : Addr) : List Op → M V Unit
  | [] => pure ()
  | op :: ops => do
    runOp T v op
    runOps T v ops

/-- observable state of a vector -/
structure St (W : Type) where
  cap : Nat
  ws : List W

/-- An edit that needs room for `need` elements: the new contents, with the same capacity if the room was there, and otherwise at least `need`, at least twice
the old capacity and at most `2 * need`; or
(only if the allocator can fail and room was missing) nothing changed. -/
def Edit (nf : Prop) (need : Nat) (st : St W) (ws' : List W) (st' : St W) : Prop :=
  (st'.ws = ws' ∧ (need ≤ st.cap → st'.cap = st.cap) ∧ (st.cap < need → need ≤ st'.cap ∧ 2 * st.cap ≤ st'.cap ∧ st'.cap ≤ 2 * need)) ∨
  (¬ nf ∧ st.cap < need ∧ st' = st)

/-- What an operation may do.  `ρ a` is the value at the argument location `a`; `nf` says that the allocator never fails. -/
def Step (dflt : W) (ρ : Loc → W) (nf : Prop) : Op → St W → St W → Prop
  | .pushBack a, st, st' => Edit nf (st.ws.length + 1) st (st.ws ++ [ρ a]) st'
  | .pushBackAlias j, st, st' => ∃ w, st.ws[j]? = some w ∧ st' = ⟨st.cap, st.ws ++ [w]⟩
  | .popBack, st, st' => st' = ⟨st.cap, st.ws.dropLast⟩
  | .insert i a, st, st' => Edit nf (st.ws.length + 1) st (st.ws.take i ++ ρ a :: st.ws.drop i) st'
  | .insertN i n a, st, st' => Edit nf (st.ws.length + n) st (st.ws.take i ++ List.replicate n (ρ a) ++ st.ws.drop i) st'
  | .erase i, st, st' => st' = ⟨st.cap, st.ws.eraseIdx i⟩
  | .eraseRange i j, st, st' => st' = ⟨st.cap, st.ws.take i ++ st.ws.drop j⟩
  | .clear, st, st' => st' = ⟨st.cap, []⟩
  | .resize n, st, st' => Edit nf n st (st.ws.take n ++ List.replicate (n - st.ws.length) dflt) st'
  | .resizeWithValue n a, st, st' => Edit nf n st (st.ws.take n ++ List.replicate (n - st.ws.length) (ρ a)) st'
  | .reserve n, st, st' => Edit nf n st (if st.cap < n then st.ws ++ List.replicate (n - st.ws.length) dflt else st.ws) st'
  | .shrinkToFit, st, st' => st'.ws = st.ws ∧ (st'.cap = st.ws.length ∨ (¬ nf ∧ st' = st))

/-- the environment `R` contains a constructed object with value `w` at `a` -/
def Holds {nf : Prop} {o : Ops V} (e : ElemSpec nf o W) (R : HProp V) (a : Loc) (w : W) : Prop :=
  a.1 ≠ 0 ∧ ∃ R', R = (cell e a w ∗ R')

/-- `need` elements fit, or the elements may be relocated bitwise (plain data, or there are none yet) -/
def Fits {nf : Prop} {o : Ops V} (e : ElemSpec nf o W) (need : Nat) (st : St W) : Prop :=
  e.Plain ∨ st.ws = [] ∨ need ≤ st.cap

/-- The positions of the operation are valid, its value arguments are live objects, and it does not run into the defects C18, C21, C22:
a reallocation must not be necessary unless the elements can be relocated bitwise (`Fits`), for `insertN` the space the code asks for must
suffice, and a self-reference must not need a reallocation. -/
def Valid {nf : Prop} {o : Ops V} (e : ElemSpec nf o W) (R : HProp V) (ρ : Loc → W) (st : St W) : Op → Prop
  | .pushBack a => Holds e R a (ρ a) ∧ Fits e (st.ws.length + 1) st
  | .pushBackAlias j => j < st.ws.length ∧ st.ws.length < st.cap
  | .insert i a => i ≤ st.ws.length ∧ Holds e R a (ρ a) ∧ Fits e (st.ws.length + 1) st
  | .insertN i n a => i ≤ st.ws.length ∧ Holds e R a (ρ a) ∧ Fits e (st.ws.length + n) st ∧
      (st.ws.length + n ≤ st.cap ∨ st.ws.length = st.cap ∨ st.ws.length + n ≤ 2 * st.cap)
  | .erase i => i ≤ st.ws.length
  | .eraseRange i j => i ≤ j ∧ j ≤ st.ws.length
  | .resize n => Fits e n st
  | .resizeWithValue n a => Holds e R a (ρ a) ∧ Fits e n st
  | .reserve n => Fits e n st
  | .shrinkToFit => e.Plain ∨ st.ws = [] ∨ st.ws.length = st.cap
  | _ => True

variable {nf : Prop} {T : Nat → Ops V} {ty : Nat} {e : ElemSpec nf (T ty) W}
variable {v b cap : Nat} {ws : List W} {R : HProp V} {ρ : Loc → W}

theorem iterAt_spec {i : Nat} :
    Triple nf (isVec e v b cap ws) (iterAt v i) (fun r => ⌜r = (b, 1 + i)⌝ ∗ isVec e v b cap ws) := by
  unfold iterAt isVec
  xintro h
  call vbegin_spec
  intro r
  xsub
  apply Triple.ret
  cancel

theorem edit_of {full : Prop} {b b' cap cap' cap1 need : Nat} {ws1 ws' : List W} (h : Res nf full b cap ws cap1 ws1 b' cap' ws') (hf : full → cap < need)
    (h1 : need ≤ cap → cap1 = cap) (h2 : cap < need → need ≤ cap1 ∧ 2 * cap ≤ cap1 ∧ cap1 ≤ 2 * need) : Edit nf need ⟨cap, ws⟩ ws1 ⟨cap', ws'⟩ := by
  rcases h with ⟨rfl, rfl, _⟩ | ⟨h, hfu, rfl, _, rfl⟩
  · exact Or.inl ⟨rfl, h1, h2⟩
  · exact Or.inr ⟨h, hf hfu, rfl⟩

theorem vec_cap {h : Heap V} (hh : (isVec e v b cap ws ∗ R) h) : ws.length ≤ cap := by
  have he : (isVec e v b cap ws ∗ R) ⊢ₛ ⌜ws.length ≤ cap⌝ ∗ (vhdr v b ws.length cap ty ∗ live e b 1 ws ∗ raws b (1 + ws.length) (cap - ws.length)) ∗ R := by
    unfold isVec
    xintro h
    cancel
  exact (hpure_sep_apply.1 (he _ hh)).1

theorem runOp_spec {op : Op} (hv : Valid e R ρ ⟨cap, ws⟩ op) :
    Triple nf (isVec e v b cap ws ∗ R) (runOp T v op)
      (fun _ => ∃ₛ b' cap' ws', ⌜Step e.dflt ρ nf op ⟨cap, ws⟩ ⟨cap', ws'⟩⌝ ∗ isVec e v b' cap' ws' ∗ R) := by
  apply Triple.fact (p := ws.length ≤ cap)
  · intro h hh
    exact vec_cap hh
  intro hcap
  have hins : ∀ (i n : Nat) (a : Loc), i ≤ ws.length → Holds e R a (ρ a) → Fits e (ws.length + n) ⟨cap, ws⟩ →
      (ws.length + n ≤ cap ∨ ws.length = cap ∨ ws.length + n ≤ 2 * cap) →
      Triple nf (isVec e v b cap ws ∗ R) (do
          let p ← iterAt v i
          let _ ← insertN T v p n a
          pure ())
        (fun _ => ∃ₛ b' cap' ws', ⌜Edit nf (ws.length + n) ⟨cap, ws⟩ (ws.take i ++ List.replicate n (ρ a) ++ ws.drop i) ⟨cap', ws'⟩⌝ ∗ isVec e v b' cap' ws' ∗ R) := by
    intro i n a hi ha hf hr
    obtain ⟨ha0, R', rfl⟩ := ha
    call (iterAt_spec (v := v))
    intro r
    xsub
    obtain ⟨X, Y, rfl, rfl⟩ : ∃ X Y, ws = X ++ Y ∧ X.length = i := ⟨ws.take i, ws.drop i, by simp, by simp; omega⟩
    have hroom : (X ++ Y).length + n ≤ insCap cap (X ++ Y).length n := by
      unfold insCap newCap
      split
      · split <;> omega
      · omega
    call (insertN_spec (e := e) (v := v) (b := b) (cap := cap) (X := X) (Y := Y) (count := n) (value := a) (w := ρ a) ha0 hroom hf)
    intro r
    xintro b' cap' ws' h
    apply Triple.ret
    xexists b', cap', ws'
    cancel
    rw [List.take_left, List.drop_left]
    refine edit_of h.1 id ?_ ?_
    · intro h; unfold insCap; rw [if_neg (by omega)]
    · intro h
      refine ⟨hroom, ?_⟩
      unfold insCap newCap
      rw [if_pos h]
      split <;> omega
  have hrc : ∀ n, (cap < n → n ≤ (if cap < n then newCap cap (n - ws.length) ws.length else cap) ∧
      2 * cap ≤ (if cap < n then newCap cap (n - ws.length) ws.length else cap) ∧
      (if cap < n then newCap cap (n - ws.length) ws.length else cap) ≤ 2 * n) := by
    intro n h
    rw [if_pos h]
    unfold newCap
    split <;> omega
  cases op with
  | pushBack a =>
    obtain ⟨⟨ha0, R', rfl⟩, hf⟩ := hv
    unfold runOp
    dsimp only
    call (pushBack_spec (e := e) (v := v) (b := b) (cap := cap) (ws := ws) (value := a) (w := ρ a) ha0 hf)
    intro _
    xintro b' cap' ws' h
    xexists b', cap', ws'
    cancel
    refine edit_of (need := ws.length + 1) h (by omega) ?_ ?_
    · intro h; rw [if_neg (by omega)]
    · intro h
      rw [if_pos (by omega)]
      unfold newCap
      split <;> omega
  | pushBackAlias j =>
    obtain ⟨h1, h2⟩ : j < ws.length ∧ ws.length < cap := hv
    unfold runOp
    dsimp only
    call (at_spec (v := v))
    intro r
    xsub
    apply Triple.fact (p := b ≠ 0)
    · rintro h hh rfl
      have := vec_cap0 hh
      omega
    intro hb
    have hget : ws[j]? = some ws[j] := by simp
    call (pushBack_room (e := e) (R := R) (b := b) (cap := cap) (value := (b, 1 + j)) hb h2 (CanCopy.live hget).frame)
    intro _
    xexists b, cap, ws ++ [ws[j]]
    cancel
    exact ⟨_, hget, rfl⟩
  | popBack =>
    call (popBack_spec (v := v))
    intro _
    xexists b, cap, _
    cancel
  | insert i a =>
    obtain ⟨h1, h2, h3⟩ := hv
    refine Triple.post (hins i 1 a h1 h2 h3 ?_) ?_
    · simp only at h1; omega
    · intro _
      xintro b' cap' ws' h
      xexists b', cap', ws'
      cancel
      simpa [Step] using h
  | insertN i n a =>
    obtain ⟨h1, h2, h3, h4⟩ := hv
    exact hins i n a h1 h2 h3 h4
  | erase i =>
    unfold runOp
    dsimp only
    call (iterAt_spec (v := v))
    intro r
    xsub
    rcases Nat.lt_or_ge i ws.length with hi | hi
    · obtain ⟨X, w, Y, rfl, rfl⟩ : ∃ X w Y, ws = X ++ w :: Y ∧ X.length = i :=
        ⟨ws.take i, ws[i], ws.drop (i+1), by simp, by simp; omega⟩
      call (erase_spec (v := v))
      intro r
      xsub
      apply Triple.ret
      xexists b, cap, X ++ Y
      cancel
      show (⟨_, _⟩ : St W) = ⟨_, (X ++ w :: Y).eraseIdx X.length⟩
      simp [List.eraseIdx_append]
    · call (erase_invalid (v := v) (b := b) (cap := cap) (ws := ws) (p := (b, 1 + i)) (by simp; omega))
      intro r
      xsub
      apply Triple.ret
      xexists b, cap, ws
      cancel
      show (⟨_, _⟩ : St W) = ⟨_, ws.eraseIdx i⟩
      rw [List.eraseIdx_of_length_le hi]
  | eraseRange i j =>
    obtain ⟨h1, h2⟩ : i ≤ j ∧ j ≤ ws.length := hv
    unfold runOp
    dsimp only
    call (iterAt_spec (v := v))
    intro r
    xsub
    call (iterAt_spec (v := v))
    intro r
    xsub
    obtain ⟨X, Y, Z, rfl, rfl, rfl⟩ : ∃ X Y Z, ws = X ++ Y ++ Z ∧ X.length = i ∧ X.length + Y.length = j := by
      refine ⟨ws.take i, (ws.drop i).take (j - i), ws.drop j, ?_, by simp; omega, by simp; omega⟩
      rw [List.append_assoc]
      rw [show ws.drop j = (ws.drop i).drop (j - i) by rw [List.drop_drop]; congr 1; omega, List.take_append_drop, List.take_append_drop]
    rw [← Nat.add_assoc]
    call (eraseRange_spec (v := v))
    intro r
    xsub
    apply Triple.ret
    xexists b, cap, X ++ Z
    cancel
    show (⟨_, _⟩ : St W) = ⟨_, _⟩
    simp [List.take_append, List.drop_append, List.append_assoc]
  | clear =>
    call (clear_spec (v := v))
    intro _
    xexists b, cap, _
    cancel
  | resize n =>
    unfold runOp
    dsimp only
    call (resize_spec (e := e) (v := v) (b := b) (cap := cap) (ws := ws) (count := n) hv)
    intro _
    xintro b' cap' ws' h
    xexists b', cap', ws'
    cancel
    exact edit_of h id (fun h => if_neg (by omega)) (hrc n)
  | resizeWithValue n a =>
    obtain ⟨⟨ha0, R', rfl⟩, hf⟩ := hv
    unfold runOp
    dsimp only
    have := (resizeWithValue_spec (e := e) (v := v) (b := b) (cap := cap) (ws := ws) (count := n) (value := a) (w := ρ a) hf)
    rw [arg_cell ha0] at this
    call this
    intro _
    xintro b' cap' ws' h
    xexists b', cap', ws'
    cancel
    exact edit_of h id (fun h => if_neg (by omega)) (hrc n)
  | reserve n =>
    unfold runOp
    dsimp only
    have hf : e.Plain ∨ ws = [] ∨ n ≤ cap := hv
    by_cases hn : n ≤ cap
    · have : Triple nf (isVec e v b cap ws) (reserve T v n) (fun _ => isVec e v b cap ws) := by
        apply vec_facts'; intro hv hcap
        unfold reserve
        rw [if_neg hv]
        call (vcapacity_spec (v := v) (b := b) (cap := cap) (ws := ws) (e := e))
        intro c
        xsub
        rw [if_pos hn]
        apply Triple.ret
        exact ent_refl _
      call this
      intro _
      xexists b, cap, ws
      cancel
      refine Or.inl ⟨?_, fun _ => rfl, fun h => ?_⟩
      · show ws = if cap < n then _ else ws
        rw [if_neg (by omega)]
      · simp only at h; omega
    · have hf' : e.Plain ∨ ws = [] := by
        rcases hf with h | h | h
        · exact Or.inl h
        · exact Or.inr h
        · exact absurd h hn
      call (reserve_spec (e := e) (v := v) (b := b) (cap := cap) (ws := ws) (k := n) hf')
      intro _
      xintro b' cap' ws' h
      xexists b', cap', ws'
      cancel
      exact edit_of h id (fun h => if_neg (by omega)) (hrc n)
  | shrinkToFit =>
    unfold runOp
    dsimp only
    call (shrinkToFit_spec (e := e) (v := v) (b := b) (cap := cap) (ws := ws) hv)
    intro _
    xintro b' cap' h
    xexists b', cap', ws
    cancel
    refine ⟨rfl, h.imp id ?_⟩
    rintro ⟨h1, rfl, rfl⟩
    exact ⟨h1, rfl⟩

/-- all ways a history may change a vector -/
inductive Steps (dflt : W) (ρ : Loc → W) (nf : Prop) : List Op → St W → St W → Prop
  | nil (st : St W) : Steps dflt ρ nf [] st st
  | cons {op : Op} {ops : List Op} {s1 s2 s3 : St W} : Step dflt ρ nf op s1 s2 → Steps dflt ρ nf ops s2 s3 → Steps dflt ρ nf (op :: ops) s1 s3

/-- A history is valid if each operation is valid in every state the previous ones can lead to. -/
def ValidOps {o : Ops V} (e : ElemSpec nf o W) (R : HProp V) (ρ : Loc → W) : List Op → St W → Prop
  | [], _ => True
  | op :: ops, st => Valid e R ρ st op ∧ ∀ st', Step e.dflt ρ nf op st st' → ValidOps e R ρ ops st'

theorem runOps_spec {ops : List Op} (hv : ValidOps e R ρ ops ⟨cap, ws⟩) :
    Triple nf (isVec e v b cap ws ∗ R) (runOps T v ops)
      (fun _ => ∃ₛ b' cap' ws', ⌜Steps e.dflt ρ nf ops ⟨cap, ws⟩ ⟨cap', ws'⟩⌝ ∗ isVec e v b' cap' ws' ∗ R) := by
  induction ops generalizing b cap ws with
  | nil =>
    rw [runOps]
    apply Triple.ret
    xexists b, cap, ws
    cancel
    exact Steps.nil _
  | cons op ops ih =>
    rw [runOps]
    refine Triple.bind (runOp_spec hv.1) ?_
    intro _
    xintro b' cap' ws' h
    refine Triple.post (ih (hv.2 _ h)) ?_
    intro _
    xintro b'' cap'' ws'' h'
    xexists b'', cap'', ws''
    cancel
    exact Steps.cons h h'

end CC.Vec
