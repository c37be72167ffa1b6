import Verif.Tree.Erase
/-!
# Iterators: `iter_increment`, `iter_decrement`, distance, walks
-/
namespace CC.Tree
open CC CC.Tac T
open CC.CList (Elem nodes vals firstN lastN)
variable {V β : Type} {nf : Prop}

/-- a function that changes nothing, in the middle of a program -/
theorem cps_frame {α : Type} {P P0 R : HProp V} {m : M V α} {v : α} {K : α → M V β} {Q : β → HProp V} (hP : P = (P0 ∗ R))
    (hm : Triple nf P0 m (fun x => ⌜x = v⌝ ∗ P0)) (hk : Triple nf P (K v) Q) : Triple nf P (m >>= K) Q := by
  rw [hP] at hk ⊢
  refine Triple.bind (Triple.frame hm) fun x => ?_
  rw [sep_assoc]
  apply Triple.pure_left
  rintro rfl
  exact hk

section
variable {a h N : Nat} {g : Cfg} {t : T (Elem V)} {F : HProp V} {X Y : List (Elem V)} {e : Elem V} {Q : β → HProp V}

theorem shape_sub {s : T (Elem V)} {k : Ctx (Elem V)} (ht : t = plug s k) : ∃ R, (isShape a h g t ∗ F) = (tr (upA h k) s ∗ R) := by
  refine ⟨hdr a h g t.toList.length (firstN t.toList h) (lastN t.toList h) ∗ cx h (rootA s) k ∗ F, ?_⟩
  have := cx_plug (h := h) (t := s) (k := k)
  rw [← ht] at this
  rw [isShape, ← this]
  ac_rfl

theorem minimumF_cps {s : T (Elem V)} {k : Ctx (Elem V)} {K : Nat → M V β} (hN : s.height ≤ N) (ht : t = plug s k) (hk : Triple nf (isShape a h g t ∗ F) (K (firstN s.toList 0)) Q) :
    Triple nf (isShape a h g t ∗ F) (minimumF N (rootA s) >>= K) Q := by
  obtain ⟨R, hR⟩ := shape_sub (a := a) (h := h) (g := g) (F := F) ht
  exact cps_frame hR (minimumF_spec hN) hk
theorem maximumF_cps {s : T (Elem V)} {k : Ctx (Elem V)} {K : Nat → M V β} (hN : s.height ≤ N) (ht : t = plug s k) (hk : Triple nf (isShape a h g t ∗ F) (K (lastN s.toList 0)) Q) :
    Triple nf (isShape a h g t ∗ F) (maximumF N (rootA s) >>= K) Q := by
  obtain ⟨R, hR⟩ := shape_sub (a := a) (h := h) (g := g) (F := F) ht
  exact cps_frame hR (maximumF_spec hN) hk

theorem minimum_cps {s : T (Elem V)} {k : Ctx (Elem V)} {K : Nat → M V β} (ht : t = plug s k) (hk : Triple nf (isShape a h g t ∗ F) (K (firstN s.toList 0)) Q) :
    Triple nf (isShape a h g t ∗ F) (minimum (rootA s) >>= K) Q := Triple.leB (minimumF_le s.height _) (minimumF_cps (Nat.le_refl _) ht hk)
theorem maximum_cps {s : T (Elem V)} {k : Ctx (Elem V)} {K : Nat → M V β} (ht : t = plug s k) (hk : Triple nf (isShape a h g t ∗ F) (K (lastN s.toList 0)) Q) :
    Triple nf (isShape a h g t ∗ F) (maximum (rootA s) >>= K) Q := Triple.leB (maximumF_le s.height _) (maximumF_cps (Nat.le_refl _) ht hk)

theorem rootA_mem {s : T (Elem V)} (hs : s ≠ leaf) : ∃ e ∈ s.toList, rootA s = e.node := by
  cases s with
  | leaf => exact absurd rfl hs
  | node c l e r => exact ⟨e, by simp, rfl⟩

theorem nodes_ne {A B : List (Elem V)} {x y : Elem V} (hn : (nodes (A ++ B)).Nodup) (hx : x ∈ A) (hy : y ∈ B) : x.node ≠ y.node := by
  simp only [nodes, List.map_append, List.nodup_append] at hn
  exact hn.2.2 _ (List.mem_map_of_mem hx) _ (List.mem_map_of_mem hy)

theorem nil_or_plug (k : Ctx (Elem V)) (f : Frame (Elem V)) (s : T (Elem V)) : plug s (f :: k) = plug (f.plug s) k := rfl

/-- the second half of `iter_increment` -/
def incUp (N : Nat) (node p : Addr) : M V Addr := do
  let (node, p) ← climbRightF N node p
  let r ← right node
  if p ≠ r then pure p else pure node

theorem incUp_cps {c : Color} {l r : T (Elem V)} {k : Ctx (Elem V)} {K : Nat → M V β} (hN : k.length + 2 ≤ N) (ht : t = plug (node c l e r) k)
    (hk : Triple nf (isShape a h g t ∗ F) (K (firstN (after k) h)) Q) :
    Triple nf (isShape a h g t ∗ F) (incUp N e.node (upA h k) >>= K) Q := by
  refine with_facts fun hf => ?_
  have key : ∀ (k : Ctx (Elem V)) (N : Nat) (_ : k.length + 2 ≤ N) (c : Color) (l : T (Elem V)) (e : Elem V) (r : T (Elem V)), t = plug (node c l e r) k →
      Triple nf (isShape a h g t ∗ F) (K (firstN (after k) h)) Q →
      Triple nf (isShape a h g t ∗ F) (incUp N e.node (upA h k) >>= K) Q := by
    clear hk ht hN
    intro k
    induction k with
    | nil =>
      intro N hN c l e r ht hk
      obtain ⟨N, rfl⟩ : ∃ N', N = N' + 2 := ⟨N - 2, by omega⟩
      have hl := toList_plug (t := node c l e r) (k := [])
      rw [← ht] at hl
      simp only [before_nil, after_nil, List.nil_append, List.append_nil, toList_node] at hl
      have hlast : ReadsN (isShape a h g t ∗ F) (h, 4) (lastN t.toList h) := rd_hright
      have hroot : ReadsN (isShape a h g t ∗ F) (h, 2) (rootA t) := rd_hroot
      have hrt : rootA t = e.node := by rw [ht]; rfl
      rw [hrt] at hroot
      have hne := hf.ne e (by rw [hl]; simp)
      have hi := lastN_eq_iff (h := h) (X := l.toList) (e := e) (Y := r.toList) (by rw [← hl]; exact hf.nodup)
      rw [← hl] at hi
      have hrr : rootA r ≠ h := by
        by_cases h1 : r = leaf
        · subst h1; exact fun h => hf.h0 h.symm
        · obtain ⟨y, hy, he⟩ := rootA_mem h1
          rw [he]
          exact (hf.ne y (by rw [hl]; simp [hy])).1
      unfold incUp
      simp only [bind_assoc, upA_nil, after_nil, CList.firstN_nil] at hk ⊢
      rw [climbRightF]
      rw [bind_assoc]
      refine ldN_reads hlast ?_
      by_cases h1 : r.toList = []
      · have h2 := hi.2 h1
        rw [if_pos h2.symm, bind_assoc]
        refine ldN_reads hroot ?_
        rw [climbRightF, bind_assoc]
        have hright := rd_right (a := a) (h := h) (g := g) (F := F) ht
        refine ldN_reads hright ?_
        rw [if_neg hrr]
        rw [pure_bind]
        dsimp only
        refine ldN_reads hlast ?_
        rw [← h2, if_neg (by simp), pure_bind]
        exact hk
      · have h2 := mt hi.1 h1
        have h2' : ¬ lastN t.toList h = e.node := fun h => h2 h.symm
        rw [if_neg h2', pure_bind]
        dsimp only
        have hright := rd_right (a := a) (h := h) (g := g) (F := F) ht
        refine ldN_reads hright ?_
        rw [if_pos (fun h => hrr h.symm), pure_bind]
        exact hk
    | cons f k ih =>
      intro N hN c l e r ht hk
      simp only [List.length_cons] at hN
      obtain ⟨N, rfl⟩ : ∃ N', N = N' + 1 := ⟨N - 1, by omega⟩
      cases f with
      | R c' l' e' =>
        have ht' : t = plug (node c' l' e' (node c l e r)) k := ht
        have := ih N (by omega) c' l' e' (node c l e r) ht' hk
        unfold incUp at this ⊢
        simp only [bind_assoc, upA_cons, Frame.elem_R] at this ⊢
        rw [climbRightF, bind_assoc]
        refine ldN_reads (rd_right ht') ?_
        rw [rootA_node, if_pos rfl, bind_assoc]
        exact ldN_reads (rd_parent ht') this
      | L c' e' r' =>
        have ht' : t = plug (node c' (node c l e r) e' r') k := ht
        have hl := toList_plug (t := node c' (node c l e r) e' r') (k := k)
        rw [← ht'] at hl
        simp only [toList_node] at hl
        have hnod := hf.nodup
        have hne := hf.ne e (by rw [hl]; simp)
        have h1 : rootA r' ≠ e.node := by
          by_cases h1 : r' = leaf
          · subst h1; exact fun h => hne.2.1 h.symm
          · obtain ⟨y, hy, he⟩ := rootA_mem h1
            rw [he]
            refine fun h => nodes_ne (A := before k ++ (l.toList ++ e :: r.toList)) (B := e' :: r'.toList ++ after k) (x := e) (y := y) ?_ (by simp) (by simp [hy]) h.symm
            rw [hl] at hnod
            simpa using hnod
        have h2 : e'.node ≠ rootA r := by
          by_cases h1 : r = leaf
          · subst h1; exact (hf.ne e' (by rw [hl]; simp)).2.1
          · obtain ⟨y, hy, he⟩ := rootA_mem h1
            rw [he]
            refine fun h => nodes_ne (A := before k ++ (l.toList ++ e :: r.toList)) (B := e' :: r'.toList ++ after k) (x := y) (y := e') ?_ (by simp [hy]) (by simp) h.symm
            rw [hl] at hnod
            simpa using hnod
        unfold incUp
        simp only [bind_assoc, upA_cons, Frame.elem_L]
        rw [climbRightF, bind_assoc]
        refine ldN_reads (rd_right ht') ?_
        rw [if_neg h1, pure_bind]
        dsimp only
        refine ldN_reads (rd_right ht) ?_
        rw [if_pos h2, pure_bind]
        simpa using hk
  exact key k N hN c l e r ht hk

/-- the next position -/
theorem incrementF_cps {K : Nat → M V β} (hN : t.height + 1 ≤ N) (ht : t.toList = X ++ e :: Y) (hk : Triple nf (isShape a h g t ∗ F) (K (firstN Y h)) Q) :
    Triple nf (isShape a h g t ∗ F) (iterIncrementF N e.node >>= K) Q := by
  obtain ⟨c, l, r, k, htk, hX, hY⟩ := exists_ctx ht
  refine with_facts fun hf => ?_
  have hlh := length_height_le (t := node c l e r) (k := k)
  rw [← htk] at hlh
  simp only [T.height] at hlh
  unfold iterIncrementF
  rw [bind_assoc]
  refine ldN_reads (rd_right htk) ?_
  by_cases hr : r = leaf
  · subst hr
    rw [if_neg (by simp), bind_assoc]
    refine ldN_reads (rd_parent htk) ?_
    refine incUp_cps (by omega) htk ?_
    rw [hY] at hk
    exact hk
  · obtain ⟨y, hy, he⟩ := rootA_mem hr
    have h0 : rootA r ≠ 0 := by rw [he]; exact (hf.ne y (by rw [ht, hY]; simp [hy])).2.1
    rw [if_pos h0, bind_assoc]
    refine ldN_reads (rd_right htk) ?_
    refine minimumF_cps (by omega) (k := .R c l e :: k) htk ?_
    have : firstN r.toList 0 = firstN Y h := by
      rw [hY, firstN_any (h' := 0)]
      cases r with
      | leaf => exact absurd rfl hr
      | node => simp
    rw [this]
    exact hk

/-- the next position -/
theorem increment_cps {K : Nat → M V β} (ht : t.toList = X ++ e :: Y) (hk : Triple nf (isShape a h g t ∗ F) (K (firstN Y h)) Q) :
    Triple nf (isShape a h g t ∗ F) (iterIncrement e.node >>= K) Q := Triple.leB (iterIncrementF_le (t.height + 1) e.node) (incrementF_cps (Nat.le_refl _) ht hk)

theorem isHeader_node_cps {K : Bool → M V β} (ht : t.toList = X ++ e :: Y) (hg : t.Good) (hk : Triple nf (isShape a h g t ∗ F) (K false) Q) :
    Triple nf (isShape a h g t ∗ F) (isHeader e.node >>= K) Q := by
  obtain ⟨c, l, r, k, htk, hX, hY⟩ := exists_ctx ht
  refine with_facts fun hf => ?_
  have hne := hf.ne e (by rw [ht]; simp)
  unfold isHeader
  rw [if_neg hne.2.1, bind_assoc]
  refine ldN_reads (rd_parent htk) ?_
  rw [bind_assoc]
  cases k with
  | nil =>
    have hc : c = .black := by
      have := hg.1
      rw [htk] at this
      exact this
    rw [upA_nil]
    refine ldN_reads rd_hroot ?_
    rw [if_pos (by rw [htk]; rfl), bind_assoc]
    refine ldN_reads (rd_color htk) ?_
    rw [pure_bind, hc]
    exact hk
  | cons f k =>
    have hp : ReadsN (isShape a h g t ∗ F) (f.elem.node, 2) (upA h k) := by
      cases f with
      | L c' e' r' => exact rd_parent (c := c') (l := node c l e r) (r := r') (e := e') (k := k) htk
      | R c' l' e' => exact rd_parent (c := c') (l := l') (r := node c l e r) (e := e') (k := k) htk
    rw [upA_cons]
    refine ldN_reads hp ?_
    have : upA h k ≠ e.node := by
      cases k with
      | nil => exact fun h => hne.1 h.symm
      | cons f' k =>
        rw [upA_cons]
        have hn := hf.nodup
        rw [htk, toList_plug] at hn
        intro he
        cases f <;> cases f' <;> simp [nodes, List.nodup_append] at he hn <;> grind
    rw [if_neg this, pure_bind]
    exact hk

theorem isHeader_end_cps {K : Bool → M V β} (ht : t ≠ leaf) (hk : Triple nf (isShape a h g t ∗ F) (K true) Q) :
    Triple nf (isShape a h g t ∗ F) (isHeader h >>= K) Q := by
  refine with_facts fun hf => ?_
  cases t with
  | leaf => exact absurd rfl ht
  | node c l e r =>
    unfold isHeader
    rw [if_neg hf.h0, bind_assoc]
    refine ldN_reads rd_hroot ?_
    rw [bind_assoc]
    refine ldN_reads (rd_parent (k := []) rfl) ?_
    rw [upA_nil, if_pos rfl, bind_assoc]
    refine ldN_reads rd_hcolor ?_
    rw [pure_bind]
    exact hk

theorem climbLeftF_cps {c : Color} {l r : T (Elem V)} {k : Ctx (Elem V)} {K : Nat → M V β} (hN : k.length + 1 ≤ N) (ht : t = plug (node c l e r) k) (hb : before k ≠ [])
    (hk : Triple nf (isShape a h g t ∗ F) (K (lastN (before k) h)) Q) :
    Triple nf (isShape a h g t ∗ F) (climbLeftF N e.node (upA h k) >>= K) Q := by
  refine with_facts fun hf => ?_
  induction k generalizing c l e r N with
  | nil => exact absurd rfl hb
  | cons f k ih =>
    simp only [List.length_cons] at hN
    obtain ⟨N, rfl⟩ : ∃ N', N = N' + 1 := ⟨N - 1, by omega⟩
    cases f with
    | L c' e' r' =>
      have ht' : t = plug (node c' (node c l e r) e' r') k := ht
      have := ih (N := N) (by omega) ht' (by simpa using hb) (by simpa using hk)
      simp only [upA_cons, Frame.elem_L]
      rw [climbLeftF, bind_assoc]
      refine ldN_reads (rd_left ht') ?_
      rw [rootA_node, if_pos rfl, bind_assoc]
      exact ldN_reads (rd_parent ht') this
    | R c' l' e' =>
      have ht' : t = plug (node c' l' e' (node c l e r)) k := ht
      have hl := toList_plug (t := node c' l' e' (node c l e r)) (k := k)
      rw [← ht'] at hl
      simp only [toList_node] at hl
      have hnod := hf.nodup
      have hne := hf.ne e (by rw [hl]; simp)
      have h1 : rootA l' ≠ e.node := by
        by_cases h1 : l' = leaf
        · subst h1; exact fun h => hne.2.1 h.symm
        · obtain ⟨y, hy, he⟩ := rootA_mem h1
          rw [he]
          refine fun h => nodes_ne (A := before k ++ l'.toList) (B := e' :: (l.toList ++ e :: r.toList) ++ after k) (x := y) (y := e) ?_ (by simp [hy]) (by simp) h
          rw [hl] at hnod
          simpa using hnod
      have h2 : lastN (before (.R c' l' e' :: k)) h = e'.node := by
        rw [before_R, ← List.append_assoc, lastN_snoc]
      rw [h2] at hk
      simp only [upA_cons, Frame.elem_R]
      rw [climbLeftF, bind_assoc]
      refine ldN_reads (rd_left ht') ?_
      rw [if_neg h1, pure_bind]
      exact hk

/-- the previous position -/
theorem decrementF_cps {K : Nat → M V β} (hN : t.height + 1 ≤ N) (ht : t.toList = X ++ e :: Y) (hg : t.Good) (hX0 : X ≠ []) (hk : Triple nf (isShape a h g t ∗ F) (K (lastN X h)) Q) :
    Triple nf (isShape a h g t ∗ F) (iterDecrementF N e.node >>= K) Q := by
  obtain ⟨c, l, r, k, htk, hX, hY⟩ := exists_ctx ht
  refine with_facts fun hf => ?_
  have hlh := length_height_le (t := node c l e r) (k := k)
  rw [← htk] at hlh
  simp only [T.height] at hlh
  unfold iterDecrementF
  rw [bind_assoc]
  refine isHeader_node_cps ht hg ?_
  simp only [Bool.false_eq_true, ↓reduceIte, bind_assoc]
  refine ldN_reads (rd_left htk) ?_
  by_cases hl : l = leaf
  · subst hl
    rw [if_neg (by simp), bind_assoc]
    refine ldN_reads (rd_parent htk) ?_
    simp only [toList_leaf, List.append_nil] at hX
    rw [hX] at hk hX0
    exact climbLeftF_cps (by omega) htk hX0 hk
  · obtain ⟨y, hy, he⟩ := rootA_mem hl
    have h0 : rootA l ≠ 0 := by rw [he]; exact (hf.ne y (by rw [ht, hX]; simp [hy])).2.1
    rw [if_pos h0, bind_assoc]
    refine ldN_reads (rd_left htk) ?_
    refine maximumF_cps (by omega) (k := .L c e r :: k) htk ?_
    have : lastN l.toList 0 = lastN X h := by
      rw [hX, lastN_any (h' := 0)]
      cases l with
      | leaf => exact absurd rfl hl
      | node => simp
    rw [this]
    exact hk

/-- the position before the end -/
theorem decrementF_end_cps {K : Nat → M V β} (ht : t ≠ leaf) (hk : Triple nf (isShape a h g t ∗ F) (K (lastN t.toList h)) Q) :
    Triple nf (isShape a h g t ∗ F) (iterDecrementF N h >>= K) Q := by
  unfold iterDecrementF
  rw [bind_assoc]
  refine isHeader_end_cps ht ?_
  simp only [↓reduceIte]
  exact ldN_reads rd_hright hk

end

/-- the position before any position that has one -/
theorem decrementF_pos {a h N : Nat} {g : Cfg} {t : T (Elem V)} {F : HProp V} {X Y : List (Elem V)} {Q : β → HProp V} {K : Nat → M V β}
    (hN : t.height + 1 ≤ N) (ht : t.toList = X ++ Y) (hg : t.Good) (hX0 : X ≠ []) (hk : Triple nf (isShape a h g t ∗ F) (K (lastN X h)) Q) :
    Triple nf (isShape a h g t ∗ F) (iterDecrementF N (firstN Y h) >>= K) Q := by
  cases Y with
  | nil =>
    rw [List.append_nil] at ht
    have : t ≠ leaf := by rintro rfl; exact hX0 ht.symm
    refine decrementF_end_cps this ?_
    rw [ht]
    exact hk
  | cons e Y => exact decrementF_cps hN ht hg hX0 hk
/-- the position before any position that has one -/
theorem decrement_pos {a h : Nat} {g : Cfg} {t : T (Elem V)} {F : HProp V} {X Y : List (Elem V)} {Q : β → HProp V} {K : Nat → M V β}
    (ht : t.toList = X ++ Y) (hg : t.Good) (hX0 : X ≠ []) (hk : Triple nf (isShape a h g t ∗ F) (K (lastN X h)) Q) :
    Triple nf (isShape a h g t ∗ F) (iterDecrement (firstN Y h) >>= K) Q :=
  Triple.leB (iterDecrementF_le (t.height + 1) (firstN Y h)) (decrementF_pos (Nat.le_refl _) ht hg hX0 hk)

/-- different positions have different addresses -/
theorem pos_ne {a h : Nat} {X W Y : List (Elem V)} {e : Elem V} (hf : Facts a h (X ++ e :: W ++ Y)) : e.node ≠ firstN Y h := by
  cases Y with
  | nil => exact (hf.ne e (by simp)).1
  | cons y Y => exact nodes_ne (A := X ++ e :: W) (B := y :: Y) hf.nodup (by simp) (by simp)

theorem distanceLoop_cps {a h n : Nat} {g : Cfg} {t : T (Elem V)} {F : HProp V} {X W Y : List (Elem V)} {Q : β → HProp V} {K : Nat → M V β}
    (ht : t.toList = X ++ W ++ Y) (hk : Triple nf (isShape a h g t ∗ F) (K (n + W.length)) Q) :
    Triple nf (isShape a h g t ∗ F) (distanceLoop (firstN (W ++ Y) h) (firstN Y h) n >>= K) Q := by
  refine with_facts fun hf => ?_
  rw [ht] at hf
  induction W generalizing X n with
  | nil =>
    rw [distanceLoop, List.nil_append, if_neg (by simp), pure_bind]
    exact hk
  | cons e W ih =>
    rw [distanceLoop, List.cons_append, CList.firstN_cons, if_pos (pos_ne hf), bind_assoc]
    refine increment_cps (X := X) (Y := W ++ Y) (by rw [ht]; simp) ?_
    have h1 : X ++ e :: W ++ Y = (X ++ [e]) ++ W ++ Y := by simp
    refine ih (X := X ++ [e]) (by rw [ht, h1]) ?_ (by rw [← h1]; exact hf)
    have : n + (e :: W).length = n + 1 + W.length := by simp <;> omega
    rw [← this]
    exact hk

theorem walkFwd_cps {a h : Nat} {g : Cfg} {t : T (Elem V)} {F : HProp V} {X W Y : List (Elem V)} {Q : β → HProp V} {K : List V → M V β}
    (ht : t.toList = X ++ W ++ Y) (hk : Triple nf (isShape a h g t ∗ F) (K (vals W)) Q) :
    Triple nf (isShape a h g t ∗ F) (walkFwd (firstN (W ++ Y) h) (firstN Y h) >>= K) Q := by
  refine with_facts fun hf => ?_
  rw [ht] at hf
  induction W generalizing X K with
  | nil =>
    rw [walkFwd, List.nil_append, if_neg (by simp), pure_bind]
    exact hk
  | cons e W ih =>
    have h1 : X ++ e :: W ++ Y = (X ++ [e]) ++ W ++ Y := by simp
    have h2 : t.toList = X ++ e :: (W ++ Y) := by rw [ht]; simp
    rw [walkFwd, List.cons_append, CList.firstN_cons, if_pos (pos_ne hf)]
    simp only [iterDereference, bind_assoc, pure_bind]
    refine ldN_reads (rd_box h2) ?_
    refine ldV_reads (rd_val h2) ?_
    refine increment_cps h2 ?_
    refine ih (X := X ++ [e]) (by rw [ht, h1]) ?_ (by rw [← h1]; exact hf)
    exact hk

/-- reverse iteration over the elements `W`, from the position behind them to their first one -/
theorem walkRev_cps {a h : Nat} {g : Cfg} {t : T (Elem V)} {F : HProp V} {X W Y : List (Elem V)} {Q : β → HProp V} {K : List V → M V β}
    (ht : t.toList = X ++ W ++ Y) (hg : t.Good) (hk : Triple nf (isShape a h g t ∗ F) (K (vals W).reverse) Q) :
    Triple nf (isShape a h g t ∗ F) (walkRev (firstN Y h) (firstN (W ++ Y) h) >>= K) Q := by
  refine with_facts fun hf => ?_
  rw [ht] at hf
  induction hM : W.length generalizing W Y K with
  | zero =>
    obtain rfl := List.length_eq_zero_iff.1 hM
    rw [walkRev, List.nil_append, if_neg (by simp), pure_bind]
    exact hk
  | succ n ih =>
    rcases List.eq_nil_or_concat W with rfl | ⟨W', e, rfl⟩
    · simp at hM
    simp only [List.concat_eq_append, List.length_append, List.length_singleton, Nat.add_right_cancel_iff] at hM ht hf hk ⊢
    have h2 : t.toList = (X ++ W') ++ e :: Y := by rw [ht]; simp
    have hne : firstN Y h ≠ firstN (W' ++ [e] ++ Y) h := by
      cases W' with
      | nil => exact fun h => pos_ne (X := X) (W := []) (by simpa using hf) h.symm
      | cons x W' => exact fun h => pos_ne (X := X) (e := x) (W := W' ++ [e]) (by simpa using hf) h.symm
    rw [walkRev, if_pos hne]
    simp only [revDereference, revIncrement, bind_assoc, pure_bind]
    refine decrement_pos (X := X ++ W' ++ [e]) (by rw [h2]; simp) hg (by simp) ?_
    rw [lastN_snoc]
    refine ldN_reads (rd_box h2) ?_
    refine ldV_reads (rd_val h2) ?_
    refine decrement_pos (X := X ++ W' ++ [e]) (by rw [h2]; simp) hg (by simp) ?_
    rw [lastN_snoc]
    have := ih (W := W') (Y := e :: Y) (K := fun vs => K (e.val :: vs)) (by rw [h2]) (by simpa [vals] using hk) (by simpa using hf) hM
    simpa using this

section
variable {a h : Nat} {g : Cfg} {t : T (Elem V)} {F : HProp V} {Q : β → HProp V}
theorem mkIter_cps {x : Nat} {K : Nat → M V β} (hvt : g.vt ≠ 0) (hx : x ≠ 0) (hk : Triple nf (isShape a h g t ∗ F) (K x) Q) :
    Triple nf (isShape a h g t ∗ F) (mkIter a x >>= K) Q := by
  unfold mkIter
  rw [bind_assoc]
  refine ldN_reads rd_vtype ?_
  step
  step
  · simpa using hvt
  step
  step
  · simpa using hx
  rw [pure_bind]
  exact hk

theorem root_cps {K : Nat → M V β} (hk : Triple nf (isShape a h g t ∗ F) (K (rootA t)) Q) :
    Triple nf (isShape a h g t ∗ F) (root a >>= K) Q := by
  unfold root
  rw [bind_assoc]
  exact ldN_reads rd_header (ldN_reads rd_hroot hk)
theorem leftmost_cps {K : Nat → M V β} (hk : Triple nf (isShape a h g t ∗ F) (K (firstN t.toList h)) Q) :
    Triple nf (isShape a h g t ∗ F) (leftmost a >>= K) Q := by
  unfold leftmost
  rw [bind_assoc]
  exact ldN_reads rd_header (ldN_reads rd_hleft hk)
theorem rightmost_cps {K : Nat → M V β} (hk : Triple nf (isShape a h g t ∗ F) (K (lastN t.toList h)) Q) :
    Triple nf (isShape a h g t ∗ F) (rightmost a >>= K) Q := by
  unfold rightmost
  rw [bind_assoc]
  exact ldN_reads rd_header (ldN_reads rd_hright hk)

theorem firstN_ne_zero {es : List (Elem V)} (hf : Facts a h es) {X Y : List (Elem V)} (he : es = X ++ Y) : firstN Y h ≠ 0 := by
  cases Y with
  | nil => exact hf.h0
  | cons y Y => exact (hf.ne y (by simp [he])).2.1

theorem begin_cps {K : Nat → M V β} (hvt : g.vt ≠ 0) (hk : Triple nf (isShape a h g t ∗ F) (K (firstN t.toList h)) Q) :
    Triple nf (isShape a h g t ∗ F) (begin_ a >>= K) Q := by
  refine with_facts fun hf => ?_
  unfold begin_
  step
  step
  · simpa using hf.a0
  rw [bind_assoc]
  refine leftmost_cps ?_
  exact mkIter_cps hvt (firstN_ne_zero hf (X := []) rfl) hk
theorem end_cps {K : Nat → M V β} (hvt : g.vt ≠ 0) (hk : Triple nf (isShape a h g t ∗ F) (K h) Q) :
    Triple nf (isShape a h g t ∗ F) (end_ a >>= K) Q := by
  refine with_facts fun hf => ?_
  unfold end_
  step
  step
  · simpa using hf.a0
  rw [bind_assoc]
  refine ldN_reads rd_header ?_
  exact mkIter_cps hvt hf.h0 hk
theorem empty_cps {K : Bool → M V β} (hk : Triple nf (isShape a h g t ∗ F) (K t.toList.isEmpty) Q) :
    Triple nf (isShape a h g t ∗ F) (empty a >>= K) Q := by
  refine with_facts fun hf => ?_
  unfold empty
  rw [if_neg hf.a0, bind_assoc]
  refine ldN_reads rd_count ?_
  rw [pure_bind]
  have : (t.toList.length == 0) = t.toList.isEmpty := by cases t.toList <;> rfl
  rw [this]
  exact hk
theorem size_cps {K : Nat → M V β} (hk : Triple nf (isShape a h g t ∗ F) (K t.toList.length) Q) :
    Triple nf (isShape a h g t ∗ F) (size a >>= K) Q := by
  refine with_facts fun hf => ?_
  unfold size
  rw [if_neg hf.a0]
  exact ldN_reads rd_count hk
end

end CC.Tree
