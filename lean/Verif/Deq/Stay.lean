import Verif.Deq.History
/-!
# References and iterators of deques: the storage stays where it is as long as it suffices
-/
namespace CC.Deq
open CC CC.Tac
open CC.Vec (arg arg_null arg_cell)
variable {V W : Type}

/-- there are free slots for the operation, at the end where it needs them (shrinking is not said to keep the storage) -/
def Space (st : St W) : Op → Prop
  | .pushBack _ => 0 < st.hi
  | .pushFront _ => 0 < st.lo
  | .insert _ _ => 1 ≤ st.lo + st.hi
  | .insertN _ n _ => n ≤ st.lo + st.hi
  | .resize n => n - st.ws.length ≤ st.lo + st.hi
  | .resizeWithValue n _ => n - st.ws.length ≤ st.lo + st.hi
  | .shrinkToFit => False
  | _ => True

variable {nf : Prop} {T : Nat → Ops V} {ty : Nat} {e : ElemSpec nf (T ty) W}
variable {v b lo hi : Nat} {ws : List W} {R : HProp V} {ρ : Loc → W}

theorem stay_of {k b' lo' hi' : Nat} {ws1 ws' : List W} (h : Res nf k b lo hi ws ws1 b' lo' hi' ws') (hk : k ≤ lo + hi) : b' = b := by
  rcases h with ⟨_, h⟩ | ⟨_, h, _⟩
  · exact (h hk).1
  · omega

/-- resize, for an argument that may be NULL -/
theorem resize_stay {count : Nat} {value : Loc} {w : W} (hp : e.Plain ∨ ws = [] ∨ count - ws.length ≤ lo + hi) :
    Triple nf (isDeq e v b lo hi ws ∗ CC.Vec.arg e value w) (resizeWithValue T v count value)
      (fun _ => ∃ₛ b' lo' hi' ws', ⌜(Edit nf (count - ws.length) (lo + hi) ⟨lo, hi, ws⟩
          (ws.take count ++ List.replicate (count - ws.length) w) ⟨lo', hi', ws'⟩ ∧
          Spare (count - ws.length) (2 * (count - ws.length)) ⟨lo, hi, ws⟩ ⟨lo', hi', ws'⟩) ∧ (count - ws.length ≤ lo + hi → b' = b)⌝ ∗ isDeq e v b' lo' hi' ws' ∗ CC.Vec.arg e value w) := by
  by_cases hlt : ws.length < count
  · refine Triple.post (resize_grow_full hlt hp) ?_
    intro _
    xintro b' lo' hi' ws' h
    xexists b', lo', hi', ws'
    cancel
    rw [List.take_of_length_le (by omega)]
    exact ⟨⟨edit_of_res (by simp) h.1, spare_of_room h.2.2⟩, stay_of h.1⟩
  · obtain ⟨X, Y, rfl, rfl⟩ : ∃ X Y, ws = X ++ Y ∧ X.length = count := ⟨ws.take count, ws.drop count, by simp, by simp; omega⟩
    call (resize_shrink (e := e) (v := v) (b := b) (lo := lo) (hi := hi) (X := X) (Y := Y))
    intro _
    xexists b, lo, hi + Y.length, X
    cancel
    refine ⟨⟨Or.inl ⟨?_, fun _ => ?_⟩, fun _ => ?_, fun h => ?_⟩, fun _ => rfl⟩
    · show X = _
      simp
    · simp [St.cap]; omega
    · exact ⟨by dsimp only; omega, by dsimp only; omega, fun _ => rfl, fun h => by simp at h⟩
    · simp at h

theorem runOp_stay {op : Op} (hv : Valid e R ρ ⟨lo, hi, ws⟩ op) :
    Triple nf (isDeq e v b lo hi ws ∗ R) (runOp T v op)
      (fun _ => ∃ₛ b' lo' hi' ws', ⌜Step e.dflt ρ nf op ⟨lo, hi, ws⟩ ⟨lo', hi', ws'⟩ ∧ (Space ⟨lo, hi, ws⟩ op → b' = b)⌝ ∗ isDeq e v b' lo' hi' ws' ∗ R) := by
  have hins : ∀ (i n : Nat) (a : Loc), i ≤ ws.length → Holds e R a (ρ a) → Fits e n (lo + hi) ⟨lo, hi, ws⟩ →
      Triple nf (isDeq e v b lo hi ws ∗ R) (do
          let p ← iterAt v i
          let _ ← insertN T v p n a
          pure ())
        (fun _ => ∃ₛ b' lo' hi' ws', ⌜(Edit nf n (lo + hi) ⟨lo, hi, ws⟩ (ws.take i ++ List.replicate n (ρ a) ++ ws.drop i) ⟨lo', hi', ws'⟩ ∧
            Spare n (2 * (n - (lo + hi))) ⟨lo, hi, ws⟩ ⟨lo', hi', ws'⟩) ∧ (n ≤ lo + hi → b' = b)⌝ ∗
          isDeq e v b' lo' hi' ws' ∗ R) := by
    intro i n a hi' ha hf
    obtain ⟨ha0, R', rfl⟩ := ha
    call (iterAt_spec (v := v))
    intro r
    xsub
    obtain ⟨X, Y, rfl, rfl⟩ : ∃ X Y, ws = X ++ Y ∧ X.length = i := ⟨ws.take i, ws.drop i, by simp, by simp; omega⟩
    call (insertN_full (e := e) (v := v) (b := b) (lo := lo) (hi := hi) (X := X) (Y := Y) (count := n) (value := a) (w := ρ a) ha0 hf)
    intro r
    xintro b' lo' hi' ws' h
    apply Triple.ret
    xexists b', lo', hi', ws'
    cancel
    rw [List.take_left, List.drop_left]
    exact ⟨⟨edit_of_res (by simp; omega) h.1, spare_of_room h.2.2⟩, stay_of h.1⟩
  cases op with
  | pushBack a =>
    obtain ⟨⟨ha0, R', rfl⟩, hf⟩ := hv
    call (pushBack_full (e := e) (v := v) (b := b) (lo := lo) (hi := hi) (ws := ws) (value := a) (w := ρ a) ha0 hf)
    intro _
    xintro b' lo' hi' ws' h
    xexists b', lo', hi', ws'
    cancel
    rcases h with ⟨rfl, h, hg⟩ | ⟨h1, h2, rfl, rfl, rfl, rfl⟩
    · refine ⟨⟨Or.inl ⟨rfl, fun hk => ?_⟩, fun hk => (h hk).2.1, fun hk => Or.inr (regrown_of (hg hk))⟩, fun hk => (h hk).1⟩
      have := h hk
      simp only [St.cap, List.length_append, List.length_singleton]
      omega
    · exact ⟨⟨Or.inr ⟨h1, by simp only; omega, rfl⟩, fun _ => rfl, fun _ => Or.inl rfl⟩, fun _ => rfl⟩
  | pushFront a =>
    obtain ⟨⟨ha0, R', rfl⟩, hf⟩ := hv
    call (pushFront_full (e := e) (v := v) (b := b) (lo := lo) (hi := hi) (ws := ws) (value := a) (w := ρ a) ha0 hf)
    intro _
    xintro b' lo' hi' ws' h
    xexists b', lo', hi', ws'
    cancel
    rcases h with ⟨rfl, h, hg⟩ | ⟨h1, h2, rfl, rfl, rfl, rfl⟩
    · refine ⟨⟨Or.inl ⟨rfl, fun hk => ?_⟩, fun hk => (h hk).2.2, fun hk => Or.inr (regrown_of (hg hk))⟩, fun hk => (h hk).1⟩
      have := h hk
      simp only [St.cap, List.length_cons]
      omega
    · exact ⟨⟨Or.inr ⟨h1, by simp only; omega, rfl⟩, fun _ => rfl, fun _ => Or.inl rfl⟩, fun _ => rfl⟩
  | popBack =>
    rcases List.eq_nil_or_concat ws with rfl | ⟨ws, w, rfl⟩
    · call (popBack_nil (v := v))
      intro _
      xexists b, lo, hi, []
      cancel
      exact ⟨rfl, fun _ => rfl⟩
    · simp only [List.concat_eq_append] at *
      call (popBack_spec (v := v))
      intro _
      xexists b, lo, hi + 1, ws
      cancel
      exact ⟨by simp [Step], fun _ => rfl⟩
  | popFront =>
    cases ws with
    | nil =>
      call (popFront_nil (v := v))
      intro _
      xexists b, lo, hi, []
      cancel
      exact ⟨rfl, fun _ => rfl⟩
    | cons w ws =>
      call (popFront_spec (v := v))
      intro _
      xexists b, lo + 1, hi, ws
      cancel
      exact ⟨rfl, fun _ => rfl⟩
  | insert i a =>
    obtain ⟨h1, h2, h3⟩ := hv
    refine Triple.post (hins i 1 a h1 h2 h3) ?_
    intro _
    xintro b' lo' hi' ws' h
    xexists b', lo', hi', ws'
    cancel
    exact ⟨by simpa [Step] using h.1, h.2⟩
  | insertN i n a =>
    obtain ⟨h1, h2, h3⟩ := hv
    exact hins i n a h1 h2 h3
  | erase i =>
    unfold runOp
    dsimp only
    call (iterAt_spec (v := v))
    intro r
    xsub
    rcases Nat.lt_or_ge i ws.length with hi' | hi'
    · obtain ⟨X, w, Y, rfl, rfl⟩ : ∃ X w Y, ws = X ++ w :: Y ∧ X.length = i :=
        ⟨ws.take i, ws[i], ws.drop (i+1), by simp, by simp; omega⟩
      call (erase_spec (v := v))
      intro r
      xsub
      apply Triple.ret
      xexists b, lo, hi + 1, X ++ Y
      cancel
      refine ⟨?_, fun _ => rfl⟩
      show (⟨_, _, _⟩ : St W) = if _ then _ else _
      rw [if_pos hi']
      simp [List.eraseIdx_append]
    · call (erase_invalid (v := v) (b := b) (lo := lo) (hi := hi) (ws := ws) (p := (b, 1 + lo + i)) (by simp; omega))
      intro r
      xsub
      apply Triple.ret
      xexists b, lo, hi, ws
      cancel
      refine ⟨?_, fun _ => rfl⟩
      show (⟨_, _, _⟩ : St W) = if _ then _ else _
      rw [if_neg (by simp only; omega)]
  | eraseRange i j =>
    obtain ⟨h1, h2⟩ : i ≤ j ∧ j ≤ ws.length := hv
    unfold runOp
    dsimp only
    call (iterAt_spec (v := v))
    intro r
    xsub
    call (iterAt_spec (v := v))
    intro r
    xsub
    obtain ⟨X, Y, Z, rfl, rfl, rfl⟩ : ∃ X Y Z, ws = X ++ Y ++ Z ∧ X.length = i ∧ X.length + Y.length = j := by
      refine ⟨ws.take i, (ws.drop i).take (j - i), ws.drop j, ?_, by simp; omega, by simp; omega⟩
      rw [List.append_assoc]
      rw [show ws.drop j = (ws.drop i).drop (j - i) by rw [List.drop_drop]; congr 1; omega, List.take_append_drop, List.take_append_drop]
    rw [← Nat.add_assoc]
    call (eraseRange_spec (v := v))
    intro r
    xsub
    apply Triple.ret
    xexists b, lo, hi + Y.length, X ++ Z
    cancel
    refine ⟨?_, fun _ => rfl⟩
    show (⟨_, _, _⟩ : St W) = ⟨_, _, _⟩
    simp [List.drop_append, List.append_assoc]
  | clear =>
    call (clear_any (v := v))
    intro _
    xexists b, _, _, []
    cancel
    refine ⟨⟨rfl, ?_, ?_⟩, fun _ => rfl⟩
    · have := clear_sum (lo := lo) (hi := hi) (ws := ws)
      simp [St.cap]
      omega
    · unfold clearLo clearHi
      by_cases h : ws = []
      · subst h; simp
      · simp only [if_neg h, St.cap]
  | resize n =>
    unfold runOp resize
    dsimp only
    have := resize_stay (e := e) (v := v) (b := b) (lo := lo) (hi := hi) (ws := ws) (count := n) (value := (0, 0)) (w := e.dflt) hv
    rw [arg_null rfl] at this
    call this
    · rfl
    intro _
    xintro b' lo' hi' ws' h _
    xexists b', lo', hi', ws'
    cancel
  | resizeWithValue n a =>
    obtain ⟨⟨ha0, R', rfl⟩, hf⟩ := hv
    unfold runOp
    dsimp only
    have := resize_stay (e := e) (v := v) (b := b) (lo := lo) (hi := hi) (ws := ws) (count := n) (value := a) (w := ρ a) hf
    rw [arg_cell ha0] at this
    call this
    intro _
    xintro b' lo' hi' ws' h
    xexists b', lo', hi', ws'
    cancel
  | shrinkToFit =>
    unfold runOp
    dsimp only
    call (shrinkToFit_spec (e := e) (v := v) (b := b) (lo := lo) (hi := hi) (ws := ws) hv)
    intro _
    xintro b' lo' hi' h
    xexists b', lo', hi', ws
    cancel
    refine ⟨⟨rfl, ?_⟩, fun h => h.elim⟩
    rcases h with ⟨rfl, rfl⟩ | ⟨h1, rfl, rfl, rfl⟩
    · left; simp [St.cap]
    · exact Or.inr ⟨h1, rfl⟩

end CC.Deq
