import Verif.Iter.InsertRange
import Verif.Props.CVector
import Verif.Props.CDeque
/-!
# C71: `c_vector_insert_range`, `c_deque_insert_range`

`isVec e v b cap ws`, `isDeq e v b lo hi ws`: see Props/CVector.lean, Props/CDeque.lean.  `isParam k ty x`: the object `x` is a parameter of type `c_iterator_t`, initialised from an iterator
of kind `k` with value type `ty`: a struct of four members in the slots 1 to 4 (nothing else can be in the slots 1 to 4 of its block, slot 5 is outside of it).
`NotIn (x, 5) P`: the memory described by `P` does not contain the slot behind the parameter.
-/
namespace CC.Iter
open CC CC.Tac
variable {V W : Type} {nf : Prop} {T : Nat → Ops V} {ty v b lo hi cap : Nat} {ws : List W}

/-- What insert_range does where it is defined (1): NULL. (Missing: inserting anything, see `C71_vector_violated`.) -/
theorem C71_vector_null_partial {p : Loc} {x y : Addr} {P : HProp V} : Triple nf P (vecInsertRange T 0 p x y) (fun r => ⌜r = p⌝ ∗ P) := by
  unfold vecInsertRange
  rw [if_pos rfl]
  apply Triple.ret
  cancel

/-- (2): a position that does not belong to the vector: nothing is inserted, the end is returned. -/
theorem C71_vector_invalid_partial {e : ElemSpec nf (T ty) W} {p : Loc} {x y : Addr} (hp : ¬ (p.1 = b ∧ 1 ≤ p.2 ∧ p.2 ≤ 1 + ws.length)) :
    Triple nf (Vec.isVec e v b cap ws) (vecInsertRange T v p x y) (fun r => ⌜r = (b, 1 + ws.length)⌝ ∗ Vec.isVec e v b cap ws) := by
  apply Vec.vec_facts'; intro hv hcap
  unfold vecInsertRange
  rw [if_neg hv]
  unfold Vec.isVec
  xintro h
  call Vec.isValidPos_spec
  intro r
  xsub
  rw [decide_eq_false hp]
  simp only [Bool.not_false, if_true]
  call Vec.vend_spec
  intro r
  xsub
  cancel

/-- With any position of the vector and any two iterators (of the same or of different kinds, whatever they refer to) insert_range reads memory outside its parameters: it cannot know
what the iterators refer to. -/
theorem C71_vector_violated {e : ElemSpec True (T ty) W} {k k' : Kind} {i ty1 ty2 x y : Nat} {F : HProp V} (hi : i ≤ ws.length) (hF : NotIn (x, 5) (Vec.isVec e v b cap ws ∗ F)) :
    Bad (Vec.isVec e v b cap ws ∗ isParam k ty1 x ∗ isParam k' ty2 y ∗ F) (vecInsertRange T v (b, 1 + i) x y) := by
  apply Bad.fact (p := v ≠ 0)
  · intro h hh
    unfold Vec.isVec at hh; rw [sep_assoc] at hh; exact Vec.hdr_ne hh
  intro hv
  have hval : Triple True (Vec.isVec e v b cap ws) (Vec.isValidPos v (b, 1 + i)) (fun r => ⌜r = true⌝ ∗ Vec.isVec e v b cap ws) := by
    unfold Vec.isVec; xintro h; call Vec.isValidPos_spec; intro r; xsub; cancel; simp; omega
  unfold vecInsertRange
  rw [if_neg hv]
  refine Bad.bind hval fun r => ?_
  rw [sep_assoc]
  apply Bad.pure_left
  rintro rfl
  simp only [Bool.not_true, Bool.false_eq_true, ↓reduceIte]
  refine Bad.pre (P' := isParam k ty1 x ∗ isParam k' ty2 y ∗ (Vec.isVec e v b cap ws ∗ F)) (by cancel) ?_
  exact vecInsertLoop_bad hF

/-- nothing of a vector is in other blocks -/
theorem vec_notIn {e : ElemSpec nf (T ty) W} (hp : e.Plain) {l : Loc} (hb : b ≠ 0 → l.1 ≠ b) (h0 : l.1 ≠ 0) (hv : l.1 ≠ v) : NotIn l (Vec.isVec e v b cap ws) := by
  obtain ⟨l1, l2⟩ := l
  simp only at hb h0 hv
  have hb' : l1 ≠ b := by
    by_cases h : b = 0
    · rw [h]; exact h0
    · exact hb h
  have h1 : ∀ i, (l1, l2) ≠ (v, i) := fun i h => hv (by cases h; rfl)
  have hbuf : NotIn (V := V) (l1, l2) (Vec.buf b cap) := by
    by_cases h : b = 0
    · subst h; unfold Vec.buf; rw [if_pos rfl]; exact .pure
    · rw [Vec.buf_ne h]; exact .pts (by intro h; cases h; exact hb' rfl)
  unfold Vec.isVec Vec.vhdr
  exact .sep (.sep (.pts (h1 _)) (.sep (.pts (h1 _)) (.sep (.pts (h1 _)) (.sep (.pts (h1 _)) (.sep (.pts (h1 _)) hbuf))))) (.sep .pure (.sep (.live hp (Or.inl hb')) (.raws (Or.inl hb'))))

/-- in particular a vector of plain data alone in memory, e.g. if one of its own ranges is to be inserted -/
theorem C71_vector_alone_violated {e : ElemSpec True (T ty) W} (hp : e.Plain) {k k' : Kind} {i ty1 ty2 x y : Nat} (hi : i ≤ ws.length) :
    Bad (Vec.isVec e v b cap ws ∗ isParam k ty1 x ∗ isParam k' ty2 y) (vecInsertRange T v (b, 1 + i) x y) := by
  apply Bad.fact (p := x ≠ v ∧ (b ≠ 0 → x ≠ b) ∧ x ≠ 0)
  · intro h hh
    refine ⟨?_, ?_, ?_⟩
    · unfold Vec.isVec Vec.vhdr isParam at hh
      rintro rfl
      exact loc_ne_of (l₁ := (x, 0)) (l₂ := (x, 0)) hh (by xintro _; cancel) rfl
    · intro hb
      unfold Vec.isVec Vec.vhdr isParam at hh
      rw [Vec.buf_ne hb] at hh
      rintro rfl
      exact loc_ne_of (l₁ := (x, 0)) (l₂ := (x, 0)) hh (by xintro _; cancel) rfl
    · rw [sep_left_comm] at hh
      exact isParam_ne hh
  rintro ⟨hv, hb, h0⟩
  refine Bad.pre (P' := Vec.isVec e v b cap ws ∗ isParam k ty1 x ∗ isParam k' ty2 y ∗ emp) (by cancel) ?_
  exact C71_vector_violated hi (NotIn.sep (vec_notIn hp hb h0 hv) NotIn.emp)

/-- the deque: NULL -/
theorem C71_deque_null_partial {p : Loc} {x y : Addr} {P : HProp V} : Triple nf P (deqInsertRange T 0 p x y) (fun r => ⌜r = p⌝ ∗ P) := by
  unfold deqInsertRange
  rw [if_pos rfl]
  apply Triple.ret
  cancel

/-- the deque: a position that does not belong to it -/
theorem C71_deque_invalid_partial {e : ElemSpec nf (T ty) W} {p : Loc} {x y : Addr} (hp : ¬ (p.1 = b ∧ 1 + lo ≤ p.2 ∧ p.2 ≤ 1 + lo + ws.length)) :
    Triple nf (Deq.isDeq e v b lo hi ws) (deqInsertRange T v p x y) (fun r => ⌜r = (b, 1 + lo + ws.length)⌝ ∗ Deq.isDeq e v b lo hi ws) := by
  apply Deq.deq_fact'; intro hv
  unfold deqInsertRange
  rw [if_neg hv]
  call (Deq.lift (e := e) (Deq.isValidPos_spec (v := v)))
  intro r
  xsub
  rw [decide_eq_false hp]
  simp only [Bool.not_false, if_true]
  call (Deq.lift (e := e) (Deq.dend_spec (v := v)))
  intro r
  xsub
  cancel

/-- the deque: with any position of the deque and any two iterators insert_range reads memory outside its parameters -/
theorem C71_deque_violated {e : ElemSpec True (T ty) W} {k k' : Kind} {i ty1 ty2 x y : Nat} {F : HProp V} (hi' : i ≤ ws.length) (hF : NotIn (x, 5) (Deq.isDeq e v b lo hi ws ∗ F)) :
    Bad (Deq.isDeq e v b lo hi ws ∗ isParam k ty1 x ∗ isParam k' ty2 y ∗ F) (deqInsertRange T v (b, 1 + lo + i) x y) := by
  apply Bad.fact (p := v ≠ 0)
  · intro h hh
    exact Deq.deq_ne hh
  intro hv
  have hval : Triple True (Deq.isDeq e v b lo hi ws) (Deq.isValidPos v (b, 1 + lo + i)) (fun r => ⌜r = true⌝ ∗ Deq.isDeq e v b lo hi ws) := by
    refine Triple.post (Deq.lift (e := e) (Deq.isValidPos_spec (v := v))) fun r => ?_
    refine ent_pure_left fun h => ent_pure_right ?_ (ent_refl _)
    rw [h]
    simp
    omega
  unfold deqInsertRange
  rw [if_neg hv]
  refine Bad.bind hval fun r => ?_
  rw [sep_assoc]
  apply Bad.pure_left
  rintro rfl
  simp only [Bool.not_true, Bool.false_eq_true, ↓reduceIte]
  refine Bad.pre (P' := isParam k ty1 x ∗ isParam k' ty2 y ∗ (Deq.isDeq e v b lo hi ws ∗ F)) (by cancel) ?_
  exact deqInsertLoop_bad hF

theorem C71_deque_alone_violated {e : ElemSpec True (T ty) W} (hp : e.Plain) {k k' : Kind} {i ty1 ty2 x y : Nat} (hi' : i ≤ ws.length) :
    Bad (Deq.isDeq e v b lo hi ws ∗ isParam k ty1 x ∗ isParam k' ty2 y) (deqInsertRange T v (b, 1 + lo + i) x y) := by
  apply Bad.fact (p := x ≠ v ∧ (b ≠ 0 → x ≠ b) ∧ x ≠ 0)
  · intro h hh
    refine ⟨?_, ?_, ?_⟩
    · unfold Deq.isDeq Deq.dhdr isParam at hh
      rintro rfl
      exact loc_ne_of (l₁ := (x, 0)) (l₂ := (x, 0)) hh (by cancel) rfl
    · intro hb
      unfold Deq.isDeq Deq.dhdr isParam at hh
      rw [Vec.buf_ne hb] at hh
      rintro rfl
      exact loc_ne_of (l₁ := (x, 0)) (l₂ := (x, 0)) hh (by cancel) rfl
    · rw [sep_left_comm] at hh
      exact isParam_ne hh
  rintro ⟨hv, hb, h0⟩
  have hb' : x ≠ b := by
    by_cases h : b = 0
    · rw [h]; exact h0
    · exact hb h
  refine Bad.pre (P' := Deq.isDeq e v b lo hi ws ∗ isParam k ty1 x ∗ isParam k' ty2 y ∗ emp) (by cancel) ?_
  exact C71_deque_violated hi' (NotIn.sep (Deq.deq_notIn hp hv (Or.inl hb') (by simp)) NotIn.emp)

/-! Such memories are reached: a vector made by the API, and the parameters of the call. -/

/-- passing an iterator of kind `k` as a parameter of type `c_iterator_t` -/
def pass (k : Kind) (ty : Nat) : M V Addr := do
  let q ← mallocS 4
  stN (q, 1) k.cate
  stN (q, 2) k.type
  stN (q, 3) k.ops
  stN (q, 4) ty
  pure q

theorem pass_spec {k : Kind} : Triple (V := V) True emp (pass k ty) (fun r => isParam k ty r) := by
  unfold pass mallocS
  refine Triple.mallocG_spec (fun h => absurd trivial h) fun a j ha => ?_
  simp only [List.range, List.range.loop, List.map, arr]
  unfold isParam
  step
  step
  step
  step
  apply Triple.ret
  cancel

/-- for example: a vector of three numbers with capacity 4, insert_range before the second one; `a` is another object in memory -/
example : ∃ (m : Mem Nat) (v b x y : Addr), vecInsertRange (fun _ => plainOps Vec.intTy) v (b, 1 + 1) x y m = some (.error .ub) := by
  obtain ⟨m, v, b, a, ho, hm⟩ := Vec.exists_vec_spare (T := fun _ => plainOps Vec.intTy) (ty := 1) (plainSpec (nf := True) Vec.intTy) (by simp) 3 1 (by simp)
  obtain ⟨x, m, _, ho1, hm⟩ := (pass_spec (k := .list) (ty := 1)).run (F := _) (s := m) (fun _ => ho) (by rw [emp_sep]; exact hm)
  obtain ⟨y, m, _, ho2, hm⟩ := (pass_spec (k := .list) (ty := 1)).run (F := _) (s := m) (fun _ => by rw [ho1]; exact ho) (by rw [emp_sep]; exact hm)
  refine ⟨m, v, b, x, y, C71_vector_violated (T := fun _ => plainOps Vec.intTy) (ty := 1) (e := plainSpec (nf := True) Vec.intTy) (cap := 4) (ws := [0, 0, 0])
    (k := .list) (k' := .list) (ty1 := 1) (ty2 := 1) (F := blk a 1 ∗ cell (plainSpec (nf := True) Vec.intTy) (a, 1) (plainSpec (nf := True) Vec.intTy).dflt) (by simp) ?_ m
    (by rw [ho2, ho1]; exact ho) ((show _ ⊢ₛ _ by cancel) _ hm)⟩
  have h0 : x ≠ 0 := by rw [sep_left_comm] at hm; exact isParam_ne hm
  have ha : x ≠ a := by
    rintro rfl
    unfold isParam at hm
    exact loc_ne_of (l₁ := (x, 0)) (l₂ := (x, 0)) hm (by cancel) rfl
  have hv : x ≠ v := by
    rintro rfl
    unfold Vec.isVec Vec.vhdr isParam at hm
    exact loc_ne_of (l₁ := (x, 0)) (l₂ := (x, 0)) hm (by xintro _; cancel) rfl
  have hb : b ≠ 0 → x ≠ b := by
    intro hb
    rintro rfl
    unfold Vec.isVec Vec.vhdr isParam at hm
    rw [Vec.buf_ne hb] at hm
    exact loc_ne_of (l₁ := (x, 0)) (l₂ := (x, 0)) hm (by xintro _; cancel) rfl
  refine NotIn.sep (vec_notIn (plain_plain _) hb h0 hv) (NotIn.sep (NotIn.pts ?_) ?_)
  · simp
  · unfold cell
    exact NotIn.ex fun y => NotIn.sep (NotIn.pts (by intro h; cases h)) NotIn.pure

end CC.Iter
