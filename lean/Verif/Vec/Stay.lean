import Verif.Vec.History
/-!
# References and iterators of vectors: the storage stays where it is as long as it suffices
-/
namespace CC.Vec
open CC CC.Tac
variable {V W : Type}

/-- the capacity suffices for the operation (shrinking is not said to keep the storage) -/
def Room (st : St W) : Op → Prop
  | .pushBack _ => st.ws.length + 1 ≤ st.cap
  | .insert _ _ => st.ws.length + 1 ≤ st.cap
  | .insertN _ n _ => st.ws.length + n ≤ st.cap
  | .resize n => n ≤ st.cap
  | .resizeWithValue n _ => n ≤ st.cap
  | .reserve n => n ≤ st.cap
  | .shrinkToFit => False
  | _ => True

variable {nf : Prop} {T : Nat → Ops V} {ty : Nat} {e : ElemSpec nf (T ty) W}
variable {v b cap : Nat} {ws : List W} {R : HProp V} {ρ : Loc → W}

theorem stay_of {full : Prop} {b b' cap cap' cap1 : Nat} {ws1 ws' : List W} (h : Res nf full b cap ws cap1 ws1 b' cap' ws') (hf : ¬ full) : b' = b := by
  rcases h with ⟨_, _, h⟩ | ⟨_, h, _⟩
  · exact h hf
  · exact absurd h hf

theorem runOp_stay {op : Op} (hv : Valid e R ρ ⟨cap, ws⟩ op) :
    Triple nf (isVec e v b cap ws ∗ R) (runOp T v op)
      (fun _ => ∃ₛ b' cap' ws', ⌜Step e.dflt ρ nf op ⟨cap, ws⟩ ⟨cap', ws'⟩ ∧ (Room ⟨cap, ws⟩ op → b' = b)⌝ ∗ isVec e v b' cap' ws' ∗ R) := by
  apply Triple.fact (p := ws.length ≤ cap)
  · intro h hh
    exact vec_cap hh
  intro hcap
  have hins : ∀ (i n : Nat) (a : Loc), i ≤ ws.length → Holds e R a (ρ a) → Fits e (ws.length + n) ⟨cap, ws⟩ →
      (ws.length + n ≤ cap ∨ ws.length = cap ∨ ws.length + n ≤ 2 * cap) →
      Triple nf (isVec e v b cap ws ∗ R) (do
          let p ← iterAt v i
          let _ ← insertN T v p n a
          pure ())
        (fun _ => ∃ₛ b' cap' ws', ⌜Edit nf (ws.length + n) ⟨cap, ws⟩ (ws.take i ++ List.replicate n (ρ a) ++ ws.drop i) ⟨cap', ws'⟩ ∧
          (ws.length + n ≤ cap → b' = b)⌝ ∗ isVec e v b' cap' ws' ∗ R) := by
    intro i n a hi ha hf hr
    obtain ⟨ha0, R', rfl⟩ := ha
    call (iterAt_spec (v := v))
    intro r
    xsub
    obtain ⟨X, Y, rfl, rfl⟩ : ∃ X Y, ws = X ++ Y ∧ X.length = i := ⟨ws.take i, ws.drop i, by simp, by simp; omega⟩
    have hroom : (X ++ Y).length + n ≤ insCap cap (X ++ Y).length n := by
      unfold insCap newCap
      split
      · split <;> omega
      · omega
    call (insertN_spec (e := e) (v := v) (b := b) (cap := cap) (X := X) (Y := Y) (count := n) (value := a) (w := ρ a) ha0 hroom hf)
    intro r
    xintro b' cap' ws' h
    apply Triple.ret
    xexists b', cap', ws'
    cancel
    rw [List.take_left, List.drop_left]
    refine ⟨edit_of h.1 id ?_ ?_, fun hr => stay_of h.1 (by omega)⟩
    · intro h; unfold insCap; rw [if_neg (by omega)]
    · intro h
      refine ⟨hroom, ?_⟩
      unfold insCap newCap
      rw [if_pos h]
      split <;> omega
  have hrc : ∀ n, (cap < n → n ≤ (if cap < n then newCap cap (n - ws.length) ws.length else cap) ∧
      2 * cap ≤ (if cap < n then newCap cap (n - ws.length) ws.length else cap) ∧
      (if cap < n then newCap cap (n - ws.length) ws.length else cap) ≤ 2 * n) := by
    intro n h
    rw [if_pos h]
    unfold newCap
    split <;> omega
  cases op with
  | pushBack a =>
    obtain ⟨⟨ha0, R', rfl⟩, hf⟩ := hv
    unfold runOp
    dsimp only
    call (pushBack_spec (e := e) (v := v) (b := b) (cap := cap) (ws := ws) (value := a) (w := ρ a) ha0 hf)
    intro _
    xintro b' cap' ws' h
    xexists b', cap', ws'
    cancel
    refine ⟨edit_of (need := ws.length + 1) h (by omega) ?_ ?_, fun (hr : ws.length + 1 ≤ cap) => stay_of h (by omega)⟩
    · intro h; rw [if_neg (by omega)]
    · intro h
      rw [if_pos (by omega)]
      unfold newCap
      split <;> omega
  | pushBackAlias j =>
    obtain ⟨h1, h2⟩ : j < ws.length ∧ ws.length < cap := hv
    unfold runOp
    dsimp only
    call (at_spec (v := v))
    intro r
    xsub
    apply Triple.fact (p := b ≠ 0)
    · rintro h hh rfl
      have := vec_cap0 hh
      omega
    intro hb
    have hget : ws[j]? = some ws[j] := by simp
    call (pushBack_room (e := e) (R := R) (b := b) (cap := cap) (value := (b, 1 + j)) hb h2 (CanCopy.live hget).frame)
    intro _
    xexists b, cap, ws ++ [ws[j]]
    cancel
    exact ⟨⟨_, hget, rfl⟩, fun _ => rfl⟩
  | popBack =>
    call (popBack_spec (v := v))
    intro _
    xexists b, cap, _
    cancel
    exact ⟨rfl, fun _ => rfl⟩
  | insert i a =>
    obtain ⟨h1, h2, h3⟩ := hv
    refine Triple.post (hins i 1 a h1 h2 h3 ?_) ?_
    · simp only at h1; omega
    · intro _
      xintro b' cap' ws' h
      xexists b', cap', ws'
      cancel
      exact ⟨by simpa [Step] using h.1, h.2⟩
  | insertN i n a =>
    obtain ⟨h1, h2, h3, h4⟩ := hv
    exact hins i n a h1 h2 h3 h4
  | erase i =>
    unfold runOp
    dsimp only
    call (iterAt_spec (v := v))
    intro r
    xsub
    rcases Nat.lt_or_ge i ws.length with hi | hi
    · obtain ⟨X, w, Y, rfl, rfl⟩ : ∃ X w Y, ws = X ++ w :: Y ∧ X.length = i :=
        ⟨ws.take i, ws[i], ws.drop (i+1), by simp, by simp; omega⟩
      call (erase_spec (v := v))
      intro r
      xsub
      apply Triple.ret
      xexists b, cap, X ++ Y
      cancel
      refine ⟨?_, fun _ => rfl⟩
      show (⟨_, _⟩ : St W) = ⟨_, (X ++ w :: Y).eraseIdx X.length⟩
      simp [List.eraseIdx_append]
    · call (erase_invalid (v := v) (b := b) (cap := cap) (ws := ws) (p := (b, 1 + i)) (by simp; omega))
      intro r
      xsub
      apply Triple.ret
      xexists b, cap, ws
      cancel
      refine ⟨?_, fun _ => rfl⟩
      show (⟨_, _⟩ : St W) = ⟨_, ws.eraseIdx i⟩
      rw [List.eraseIdx_of_length_le hi]
  | eraseRange i j =>
    obtain ⟨h1, h2⟩ : i ≤ j ∧ j ≤ ws.length := hv
    unfold runOp
    dsimp only
    call (iterAt_spec (v := v))
    intro r
    xsub
    call (iterAt_spec (v := v))
    intro r
    xsub
    obtain ⟨X, Y, Z, rfl, rfl, rfl⟩ : ∃ X Y Z, ws = X ++ Y ++ Z ∧ X.length = i ∧ X.length + Y.length = j := by
      refine ⟨ws.take i, (ws.drop i).take (j - i), ws.drop j, ?_, by simp; omega, by simp; omega⟩
      rw [List.append_assoc]
      rw [show ws.drop j = (ws.drop i).drop (j - i) by rw [List.drop_drop]; congr 1; omega, List.take_append_drop, List.take_append_drop]
    rw [← Nat.add_assoc]
    call (eraseRange_spec (v := v))
    intro r
    xsub
    apply Triple.ret
    xexists b, cap, X ++ Z
    cancel
    refine ⟨?_, fun _ => rfl⟩
    show (⟨_, _⟩ : St W) = ⟨_, _⟩
    simp [List.take_append, List.drop_append, List.append_assoc]
  | clear =>
    call (clear_spec (v := v))
    intro _
    xexists b, cap, _
    cancel
    exact ⟨rfl, fun _ => rfl⟩
  | resize n =>
    unfold runOp
    dsimp only
    call (resize_spec (e := e) (v := v) (b := b) (cap := cap) (ws := ws) (count := n) hv)
    intro _
    xintro b' cap' ws' h
    xexists b', cap', ws'
    cancel
    exact ⟨edit_of h id (fun h => if_neg (by omega)) (hrc n), fun (hr : n ≤ cap) => stay_of h (by omega)⟩
  | resizeWithValue n a =>
    obtain ⟨⟨ha0, R', rfl⟩, hf⟩ := hv
    unfold runOp
    dsimp only
    have := (resizeWithValue_spec (e := e) (v := v) (b := b) (cap := cap) (ws := ws) (count := n) (value := a) (w := ρ a) hf)
    rw [arg_cell ha0] at this
    call this
    intro _
    xintro b' cap' ws' h
    xexists b', cap', ws'
    cancel
    exact ⟨edit_of h id (fun h => if_neg (by omega)) (hrc n), fun (hr : n ≤ cap) => stay_of h (by omega)⟩
  | reserve n =>
    unfold runOp
    dsimp only
    have hf : e.Plain ∨ ws = [] ∨ n ≤ cap := hv
    by_cases hn : n ≤ cap
    · have : Triple nf (isVec e v b cap ws) (reserve T v n) (fun _ => isVec e v b cap ws) := by
        apply vec_facts'; intro hv hcap
        unfold reserve
        rw [if_neg hv]
        call (vcapacity_spec (v := v) (b := b) (cap := cap) (ws := ws) (e := e))
        intro c
        xsub
        rw [if_pos hn]
        apply Triple.ret
        exact ent_refl _
      call this
      intro _
      xexists b, cap, ws
      cancel
      refine ⟨Or.inl ⟨?_, fun _ => rfl, fun h => ?_⟩, fun _ => rfl⟩
      · show ws = if cap < n then _ else ws
        rw [if_neg (by omega)]
      · simp only at h; omega
    · have hf' : e.Plain ∨ ws = [] := by
        rcases hf with h | h | h
        · exact Or.inl h
        · exact Or.inr h
        · exact absurd h hn
      call (reserve_spec (e := e) (v := v) (b := b) (cap := cap) (ws := ws) (k := n) hf')
      intro _
      xintro b' cap' ws' h
      xexists b', cap', ws'
      cancel
      exact ⟨edit_of h id (fun h => if_neg (by omega)) (hrc n), fun (hr : n ≤ cap) => stay_of h (by omega)⟩
  | shrinkToFit =>
    unfold runOp
    dsimp only
    call (shrinkToFit_spec (e := e) (v := v) (b := b) (cap := cap) (ws := ws) hv)
    intro _
    xintro b' cap' h
    xexists b', cap', ws
    cancel
    refine ⟨⟨rfl, h.imp id ?_⟩, fun h => h.elim⟩
    rintro ⟨h1, rfl, rfl⟩
    exact ⟨h1, rfl⟩

end CC.Vec
