import Verif.Own.Special
/-!
# From plain values to objects

`Own e P`: the fragment consists of objects whose values are described by the assertion `P` about plain values.  A theorem about a program on plain values becomes a theorem about the program on objects.
-/
namespace CC.Own
open CC CC.Tac
open CC.Algo (Slots seg)
variable {V W α β : Type} {nf : Prop} {o : AOps V} {e : AElem o W} {P Q : HProp W} {l : Loc} {w : W}

/-- objects with values described by `P` -/
def Own (e : AElem o W) (P : HProp W) : HProp V := fun h => ∃ h', P h' ∧ owned e h' h

/-- objects with values `ws` in positions `i`, `i + 1`, … of container `c`, with all they own -/
def oseg (e : AElem o W) (c : Slots) : Nat → List W → HProp V
  | _, [] => emp
  | i, w :: ws => obj e (c i) w ∗ oseg e c (i + 1) ws

theorem Own.mono (h : P ⊢ₛ Q) : Own e P ⊢ₛ Own e Q := fun _ ⟨h', h1, h2⟩ => ⟨h', h _ h1, h2⟩

theorem Lists.nil {h : Heap W} (hL : Lists [] h) : h = Heap.empty := by
  funext l
  rcases hx : h l with _ | x
  · rfl
  · obtain ⟨w, _, hm⟩ := (hL.iff l x).1 hx
    cases hm

theorem lists_empty : Lists [] (Heap.empty : Heap W) := ⟨by simp, fun l x => by simp [Heap.empty]⟩

theorem own_emp : Own e emp = emp := by
  refine ent_antisymm ?_ ?_
  · rintro h ⟨h', rfl, L, hL, hb⟩
    cases L with
    | nil => exact hb
    | cons p L =>
      have := (hL.iff p.1 (.obj (some p.2))).2 ⟨p.2, rfl, by simp⟩
      cases this
  · rintro h rfl
    exact ⟨Heap.empty, rfl, [], lists_empty, rfl⟩

theorem own_ex {α : Type} {P : α → HProp W} : Own e (hex P) = hex fun a => Own e (P a) := by
  refine ent_antisymm ?_ ?_
  · rintro h ⟨h', ⟨a, h1⟩, h2⟩
    exact ⟨a, h', h1, h2⟩
  · rintro h ⟨a, h', h1, h2⟩
    exact ⟨h', ⟨a, h1⟩, h2⟩

theorem obj_ne {h : Heap V} (hh : (obj e l w ∗ R) h) : l.1 ≠ 0 := by
  unfold obj cell at hh
  rw [hex_sep] at hh
  obtain ⟨x, hx⟩ := hh
  rw [sep_assoc] at hx
  exact pts_ne_zero hx

theorem own_pts : Own e (pts l (.obj (some w))) = obj e l w := by
  refine ent_antisymm ?_ ?_
  · rintro h ⟨h', ⟨h0, h1⟩, h2⟩
    have h3 := owned_take (e := e) (l := l) (w := w) (by rw [h1]; simp) h h2
    rw [show hdel h' l = Heap.empty from funext fun k => by unfold hdel; rw [h1]; by_cases hk : k = l <;> simp [hk, Heap.empty]] at h3
    have : owned e (Heap.empty : Heap W) ⊢ₛ emp := by
      intro k hk
      rw [← own_emp (e := e)]
      exact ⟨_, rfl, hk⟩
    have h4 := sep_mono (ent_refl _) this h h3
    rwa [sep_emp] at h4
  · intro h hh
    have h0 : l.1 ≠ 0 := obj_ne (R := emp) (by rw [sep_emp]; exact hh)
    refine ⟨_, ⟨h0, rfl⟩, [(l, w)], ⟨by simp, fun k x => ?_⟩, ?_⟩
    · by_cases hk : k = l
      · subst hk
        simp [eq_comm]
      · simp [hk]
    · show (obj e l w ∗ emp) h
      rw [sep_emp]
      exact hh

/-- objects at different places -/
theorem big_disj {L : List (Loc × W)} {h1 h2 : Heap V} (hd : Heap.disj h1 h2) (hb : big e L h1) (ho : (obj e l w ∗ R) h2) {v : W} (hm : (l, v) ∈ L) : False := by
  obtain ⟨L1, L2, rfl⟩ := List.append_of_mem hm
  rw [big_perm List.perm_middle] at hb
  have h3 : ∃ x, h1 l = some x := by
    unfold big at hb
    obtain ⟨k1, k2, _, rfl, ⟨x, hx⟩, _⟩ := hb
    refine ⟨x, ?_⟩
    have := pts_sep_cells hx
    simp [Heap.union, this]
  have h4 : ∃ x, h2 l = some x := by
    obtain ⟨k1, k2, _, rfl, ⟨x, hx⟩, _⟩ := ho
    refine ⟨x, ?_⟩
    have := pts_sep_cells hx
    simp [Heap.union, this]
  obtain ⟨x, hx⟩ := h3
  obtain ⟨y, hy⟩ := h4
  rcases hd l with h | h
  · rw [hx] at h; cases h
  · rw [hy] at h; cases h

theorem big_sep_disj {L1 L2 : List (Loc × W)} {h : Heap V} (hh : (big e L1 ∗ big e L2) h) {v w : W} (h1 : (l, v) ∈ L1) (h2 : (l, w) ∈ L2) : False := by
  obtain ⟨k1, k2, hd, rfl, hb1, hb2⟩ := hh
  obtain ⟨M1, M2, rfl⟩ := List.append_of_mem h2
  rw [big_perm List.perm_middle] at hb2
  exact big_disj hd hb1 hb2 h1

theorem own_sep : Own e (P ∗ Q) = (Own e P ∗ Own e Q) := by
  refine ent_antisymm ?_ ?_
  · rintro h ⟨h', ⟨h1, h2, hd, rfl, hp, hq⟩, L, hL, hb⟩
    have hsplit : ∀ L : List (Loc × W), big e L ⊢ₛ (big e (L.filter fun p => (h1 p.1).isSome) ∗ big e (L.filter fun p => !(h1 p.1).isSome)) := by
      intro L
      induction L with
      | nil => simp only [List.filter_nil, big]; rw [sep_emp]; exact ent_refl _
      | cons p L ih =>
        by_cases hx : (h1 p.1).isSome
        · simp only [List.filter_cons, hx, ↓reduceIte, big, Bool.not_true, Bool.false_eq_true]
          refine ent_trans (sep_mono (ent_refl _) ih) ?_
          cancel
        · simp only [List.filter_cons, hx, ↓reduceIte, big, Bool.not_false, Bool.false_eq_true]
          refine ent_trans (sep_mono (ent_refl _) ih) ?_
          cancel
    obtain ⟨k1, k2, hk, rfl, hb1, hb2⟩ := hsplit L h hb
    refine ⟨k1, k2, hk, rfl, ⟨h1, hp, _, ⟨?_, fun l x => ?_⟩, hb1⟩, ⟨h2, hq, _, ⟨?_, fun l x => ?_⟩, hb2⟩⟩
    · exact hL.nodup.sublist (List.filter_sublist.map _)
    · constructor
      · intro hx
        obtain ⟨w, hw, hm⟩ := (hL.iff l x).1 (by simp [Heap.union, hx])
        exact ⟨w, hw, List.mem_filter.2 ⟨hm, by simp [hx]⟩⟩
      · rintro ⟨w, rfl, hm⟩
        obtain ⟨hm, hs⟩ := List.mem_filter.1 hm
        have := (hL.iff l (.obj (some w))).2 ⟨w, rfl, hm⟩
        obtain ⟨y, hy⟩ := Option.isSome_iff_exists.1 hs
        simp only [Heap.union, hy, Option.or_some, Option.some_or] at this
        dsimp only at hy
        rw [hy, ← this]
    · exact hL.nodup.sublist (List.filter_sublist.map _)
    · constructor
      · intro hx
        have hn : h1 l = none := by
          rcases hd l with h | h
          · exact h
          · rw [hx] at h; cases h
        obtain ⟨w, hw, hm⟩ := (hL.iff l x).1 (by simp [Heap.union, hx, hn])
        exact ⟨w, hw, List.mem_filter.2 ⟨hm, by simp [hn]⟩⟩
      · rintro ⟨w, rfl, hm⟩
        obtain ⟨hm, hs⟩ := List.mem_filter.1 hm
        have := (hL.iff l (.obj (some w))).2 ⟨w, rfl, hm⟩
        have hn : h1 l = none := by simpa using hs
        simpa [Heap.union, hn] using this
  · rintro h ⟨k1, k2, hk, rfl, ⟨h1, hp, L1, hL1, hb1⟩, ⟨h2, hq, L2, hL2, hb2⟩⟩
    have hb : (big e L1 ∗ big e L2) (Heap.union k1 k2) := ⟨k1, k2, hk, rfl, hb1, hb2⟩
    have hne : ∀ l v w, (l, v) ∈ L1 → (l, w) ∈ L2 → False := fun l v w h1 h2 => big_sep_disj hb h1 h2
    have hd : Heap.disj h1 h2 := by
      intro l
      rcases hx : h1 l with _ | x
      · exact .inl rfl
      · right
        rcases hy : h2 l with _ | y
        · rfl
        · obtain ⟨v, _, hv⟩ := (hL1.iff l x).1 hx
          obtain ⟨w, _, hw⟩ := (hL2.iff l y).1 hy
          exact (hne l v w hv hw).elim
    refine ⟨Heap.union h1 h2, ⟨h1, h2, hd, rfl, hp, hq⟩, L1 ++ L2, ⟨?_, fun l x => ?_⟩, ?_⟩
    · rw [List.map_append, List.nodup_append]
      refine ⟨hL1.nodup, hL2.nodup, ?_⟩
      rintro a ha b hb' rfl
      obtain ⟨⟨a1, v⟩, hv, rfl⟩ := List.mem_map.1 ha
      obtain ⟨⟨a2, w⟩, hw, h4⟩ := List.mem_map.1 hb'
      cases h4
      exact hne _ _ _ hv hw
    · unfold Heap.union
      rcases hx : h1 l with _ | y
      · simp only [Option.none_or]
        rw [hL2.iff]
        constructor
        · rintro ⟨w, h5, h6⟩; exact ⟨w, h5, List.mem_append.2 (.inr h6)⟩
        · rintro ⟨w, h5, h6⟩
          rcases List.mem_append.1 h6 with h6 | h6
          · have := (hL1.iff l (.obj (some w))).2 ⟨w, rfl, h6⟩
            rw [hx] at this; cases this
          · exact ⟨w, h5, h6⟩
      · simp only [Option.some_or]
        rw [← hx, hL1.iff]
        constructor
        · rintro ⟨w, h5, h6⟩; exact ⟨w, h5, List.mem_append.2 (.inl h6)⟩
        · rintro ⟨w, h5, h6⟩
          rcases List.mem_append.1 h6 with h6 | h6
          · exact ⟨w, h5, h6⟩
          · obtain ⟨v, _, hv⟩ := (hL1.iff l y).1 hx
            exact (hne l v w hv h6).elim
    · rw [big_append]
      exact hb

theorem own_pure {p : Prop} : Own e (⌜p⌝ ∗ Q) = (⌜p⌝ ∗ Own e Q) := by
  refine ent_antisymm ?_ ?_
  · rintro h ⟨h', h1, h2⟩
    rw [hpure_sep_apply] at h1
    rw [hpure_sep_apply]
    exact ⟨h1.1, h', h1.2, h2⟩
  · intro h hh
    rw [hpure_sep_apply] at hh
    obtain ⟨hp, h', h1, h2⟩ := hh
    exact ⟨h', by rw [hpure_sep_apply]; exact ⟨hp, h1⟩, h2⟩

theorem own_hpure {p : Prop} : Own e ⌜p⌝ = ⌜p⌝ := by
  have := own_pure (e := e) (p := p) (Q := emp)
  rwa [sep_emp, own_emp, sep_emp] at this

theorem own_seg {c : Slots} {i : Nat} {ws : List W} : Own e (seg c i ws) = oseg e c i ws := by
  induction ws generalizing i with
  | nil => exact own_emp
  | cons w ws ih =>
    show Own e (pts _ _ ∗ seg c (i + 1) ws) = _
    rw [own_sep, own_pts, ih]
    rfl

theorem lists_top (L : List (Loc × W)) : ∃ n, 0 < n ∧ ∀ p ∈ L, p.1.1 < n := by
  induction L with
  | nil => exact ⟨1, by omega, by simp⟩
  | cons p L ih =>
    obtain ⟨n, h0, hn⟩ := ih
    refine ⟨max n (p.1.1 + 1), by omega, ?_⟩
    intro q hq
    rcases List.mem_cons.1 hq with rfl | hq
    · omega
    · have := hn q hq; omega

/-- what is proved about plain values holds for objects, with whatever else the simulation yields -/
theorem transferG {m' : M W α} {m : M V β} {P : HProp W} {Q : α → HProp W} {F : HProp V} {G : α → β → HProp V} (hs : Sim e F m' m G) (ht : Triple nf P m' Q) :
    Triple True (Own e P ∗ F) m (fun b => ∃ₛ a, Own e (Q a) ∗ G a b) := by
  intro s F0 ho hh
  rw [sep_assoc] at hh
  have hh0 := hh
  obtain ⟨k1, k2, hk, hu, ⟨h', hp, L, hL, hb⟩, hF⟩ := hh
  have hnul : ∀ i, h' (0, i) = none := by
    intro i
    rcases hx : h' (0, i) with _ | x
    · rfl
    · obtain ⟨w, rfl, hm⟩ := (hL.iff _ _).1 hx
      obtain ⟨L1, L2, rfl⟩ := List.append_of_mem hm
      rw [big_perm List.perm_middle] at hb
      exact absurd rfl (obj_ne hb)
  obtain ⟨top, h0, htop⟩ := lists_top L
  let s' : Mem W := memOf h' top h0 (by
    intro l hl
    rcases hx : h' l with _ | x
    · rfl
    · obtain ⟨w, _, hm⟩ := (hL.iff _ _).1 hx
      have := htop _ hm
      dsimp only at this
      omega) hnul (fun _ => 1)
  obtain ⟨a', t', hr, _, hq⟩ := ht.run (F := emp) (s := s') (fun _ _ => by show (1 : Nat) ≠ 0; omega) (by rw [sep_emp]; exact hp)
  rw [sep_emp] at hq
  obtain ⟨a, t, hm, ho', hpost⟩ := hs s' a' t' hr s F0 ho (by rw [sep_assoc]; exact ⟨k1, k2, hk, hu, ⟨L, hL, hb⟩, hF⟩)
  refine ⟨a, t, hm, ho', ?_⟩
  refine sep_mono ?_ (ent_refl _) _ hpost
  refine fun k hk => ⟨a', ?_⟩
  exact sep_mono (fun h hh => ⟨_, hq, hh⟩) (ent_refl _) _ hk

/-- what is proved about plain values holds for objects -/
theorem transfer {m' : M W α} {m : M V α} {P : HProp W} {Q : α → HProp W} {F : HProp V} (hs : SimE e F m' m) (ht : Triple nf P m' Q) :
    Triple True (Own e P ∗ F) m (fun a => Own e (Q a) ∗ F) := by
  refine Triple.post (transferG hs ht) fun a => ?_
  refine ent_ex_left fun a' => ?_
  refine ent_trans (Q := ⌜a = a'⌝ ∗ (Own e (Q a') ∗ F)) (by cancel) ?_
  exact ent_pure_left fun h => by rw [h]; exact ent_refl _

/-- the same without additional fragment -/
theorem transfer0 {m' : M W α} {m : M V α} {P : HProp W} {Q : α → HProp W} (hs : SimE e emp m' m) (ht : Triple nf P m' Q) :
    Triple True (Own e P) m (fun a => Own e (Q a)) := by
  have := transfer hs ht
  simpa only [sep_emp] using this

/-- `transfer0` with the assertions spelled out (a proof device). -/
theorem transfer1 {V W α : Type} {nf : Prop} {o : AOps V} {e : AElem o W} {m' : M W α} {m : M V α} {P : HProp W} {Q : α → HProp W} {P' : HProp V} {Q' : α → HProp V} (h : SimE e emp m' m)
    (ht : Triple nf P m' Q) (hP : P' = Own e P) (hQ : ∀ a, Q' a = Own e (Q a)) : Triple True P' m Q' := by
  have hQ' : Q' = fun a => Own e (Q a) := funext hQ
  rw [hP, hQ']; exact transfer0 h ht

end CC.Own
