import Verif.Tree.Ins
import Verif.Tree.Peek
/-!
# `__create_node`, `__insert`
-/
namespace CC
variable {V β : Type} {nf : Prop}
theorem free5 {a : Addr} {u v w x y : Val V} :
    Triple nf (blk a 5 ∗ pts (a,1) u ∗ pts (a,2) v ∗ pts (a,3) w ∗ pts (a,4) x ∗ pts (a,5) y) (free a) (fun _ => emp) := by
  have := Triple.free_spec (nf := nf) (P := emp) (Q := fun _ => emp) (n := 5) (a := a) (vs := [u,v,w,x,y]) (k := fun _ => pure ()) rfl
    (Triple.ret (ent_refl _))
  simpa [arr] using this
theorem free7 {a : Addr} {u v w x y z o : Val V} :
    Triple nf (blk a 7 ∗ pts (a,1) u ∗ pts (a,2) v ∗ pts (a,3) w ∗ pts (a,4) x ∗ pts (a,5) y ∗ pts (a,6) z ∗ pts (a,7) o) (free a) (fun _ => emp) := by
  have := Triple.free_spec (nf := nf) (P := emp) (Q := fun _ => emp) (n := 7) (a := a) (vs := [u,v,w,x,y,z,o]) (k := fun _ => pure ()) rfl
    (Triple.ret (ent_refl _))
  simpa [arr] using this
theorem mallocS5 {P : HProp V} {Q : β → HProp V} {k : Addr → M V β} (hfail : ¬ nf → Triple nf P (k 0) Q)
    (hok : ∀ a x1 x2 x3 x4 x5, a ≠ 0 → Triple nf (blk a 5 ∗ fld a 1 x1 ∗ fld a 2 x2 ∗ fld a 3 x3 ∗ fld a 4 x4 ∗ fld a 5 x5 ∗ P) (k a) Q) :
    Triple nf P (mallocS 5 >>= k) Q :=
  Triple.mallocG_spec hfail fun a j h => by
    simpa [arr, List.range_succ, sep_assoc] using hok a (j 1) (j 2) (j 3) (j 4) (j 5) h
theorem mallocS7 {P : HProp V} {Q : β → HProp V} {k : Addr → M V β} (hfail : ¬ nf → Triple nf P (k 0) Q)
    (hok : ∀ a x1 x2 x3 x4 x5 x6 x7, a ≠ 0 →
      Triple nf (blk a 7 ∗ fld a 1 x1 ∗ fld a 2 x2 ∗ fld a 3 x3 ∗ fld a 4 x4 ∗ fld a 5 x5 ∗ fld a 6 x6 ∗ fld a 7 x7 ∗ P) (k a) Q) :
    Triple nf P (mallocS 7 >>= k) Q :=
  Triple.mallocG_spec hfail fun a j h => by
    simpa [arr, List.range_succ, sep_assoc] using hok a (j 1) (j 2) (j 3) (j 4) (j 5) (j 6) (j 7) h
end CC

namespace CC.Tree
open CC CC.Tac T
open CC.CList (Elem nodes vals firstN lastN firstN_append)
variable {V β : Type} {nf : Prop} {E : Env V}

theorem keyOf_cps {P : HProp V} {Q : β → HProp V} {a f : Nat} {value : Loc} {v : V} {K : V → M V β} (h1 : ReadsN P (a, 4) f) (h2 : Reads P value v)
    (hk : Triple nf P (K (E.kov f v)) Q) : Triple nf P (keyOf E a value >>= K) Q := by
  unfold keyOf
  simp only [bind_assoc, pure_bind]
  exact ldN_reads h1 (ldV_reads h2 hk)

theorem keyLtNode_cps {P : HProp V} {Q : β → HProp V} {a c f n b : Nat} {k v : V} {K : Bool → M V β} (h1 : ReadsN P (a, 5) c) (h2 : ReadsN P (a, 4) f)
    (h3 : ReadsN P (n, 5) b) (h4 : Reads P (b, 1) v) (hk : Triple nf P (K (E.cmp c k (E.kov f v))) Q) : Triple nf P (keyLtNode E a k n >>= K) Q := by
  unfold keyLtNode
  simp only [bind_assoc, pure_bind]
  exact ldN_reads h1 (ldN_reads h2 (ldN_reads h3 (ldV_reads h4 hk)))

theorem nodeLtKey_cps {P : HProp V} {Q : β → HProp V} {a c f n b : Nat} {k v : V} {K : Bool → M V β} (h1 : ReadsN P (a, 5) c) (h2 : ReadsN P (a, 4) f)
    (h3 : ReadsN P (n, 5) b) (h4 : Reads P (b, 1) v) (hk : Triple nf P (K (E.cmp c (E.kov f v) k)) Q) : Triple nf P (nodeLtKey E a n k >>= K) Q := by
  unfold nodeLtKey
  simp only [bind_assoc, pure_bind]
  exact ldN_reads h1 (ldN_reads h2 (ldN_reads h3 (ldV_reads h4 hk)))

section
variable {a h : Nat} {g : Cfg} {t : T (Elem V)} {F : HProp V} {X Y : List (Elem V)} {e : Elem V} {value : Loc} {v : V} {Q : β → HProp V} {K : Bool → M V β}

theorem valLtNode_cps (ht : t.toList = X ++ e :: Y) (hv : Reads (isShape a h g t ∗ F) value v)
    (hk : Triple nf (isShape a h g t ∗ F) (K (E.cmp g.cmp (E.kov g.kov v) (E.kov g.kov e.val))) Q) :
    Triple nf (isShape a h g t ∗ F) (valLtNode E a value e.node >>= K) Q := by
  unfold valLtNode
  simp only [bind_assoc]
  exact keyOf_cps rd_tkov hv (keyLtNode_cps rd_tcmp rd_tkov (rd_box ht) (rd_val ht) hk)
theorem nodeLtVal_cps (ht : t.toList = X ++ e :: Y) (hv : Reads (isShape a h g t ∗ F) value v)
    (hk : Triple nf (isShape a h g t ∗ F) (K (E.cmp g.cmp (E.kov g.kov e.val) (E.kov g.kov v))) Q) :
    Triple nf (isShape a h g t ∗ F) (nodeLtVal E a e.node value >>= K) Q := by
  unfold nodeLtVal
  simp only [bind_assoc]
  exact keyOf_cps rd_tkov hv (nodeLtKey_cps rd_tcmp rd_tkov (rd_box ht) (rd_val ht) hk)
theorem refLtNode_cps (ht : t.toList = X ++ e :: Y) (hv : Reads (isShape a h g t ∗ F) value v)
    (hk : Triple nf (isShape a h g t ∗ F) (K (E.cmp g.cmp v (E.kov g.kov e.val))) Q) :
    Triple nf (isShape a h g t ∗ F) (refLtNode E a value e.node >>= K) Q := by
  unfold refLtNode
  simp only [bind_assoc]
  exact ldV_reads hv (keyLtNode_cps rd_tcmp rd_tkov (rd_box ht) (rd_val ht) hk)
theorem nodeLtRef_cps (ht : t.toList = X ++ e :: Y) (hv : Reads (isShape a h g t ∗ F) value v)
    (hk : Triple nf (isShape a h g t ∗ F) (K (E.cmp g.cmp (E.kov g.kov e.val) v)) Q) :
    Triple nf (isShape a h g t ∗ F) (nodeLtRef E a e.node value >>= K) Q := by
  unfold nodeLtRef
  simp only [bind_assoc]
  exact ldV_reads hv (nodeLtKey_cps rd_tcmp rd_tkov (rd_box ht) (rd_val ht) hk)
end

theorem createNode_cps {a vt : Nat} {value : Loc} {v : V} {P : HProp V} {Q : β → HProp V} {K : Nat → M V β} (ha : a ≠ 0) (h1 : ReadsN P (a, 2) vt) (hvt : vt ≠ 0)
    (hv : Reads P value v) (hfail : ¬ nf → Triple nf P (K 0) Q)
    (hok : ∀ e : Elem V, e.val = v → e.node ≠ 0 → Triple nf (P ∗ nd e 0 0 0 0) (K e.node) Q) :
    Triple nf P (createNode a value >>= K) Q := by
  unfold createNode
  step
  step
  · simpa using ha
  rw [bind_assoc]
  refine ldN_reads h1 ?_
  step
  step
  · simpa using hvt
  rw [bind_assoc]
  apply mallocS5
  · intro h
    rw [if_pos rfl, pure_bind]
    exact hfail h
  intro n x1 x2 x3 x4 x5 hn
  rw [if_neg hn, bind_assoc]
  apply mallocO1
  · intro h
    steps
    rw [if_pos rfl]
    rw [bind_assoc]
    call (free5 (a := n))
    intro _
    rw [pure_bind, emp_sep]
    exact hfail h
  intro b hb
  steps
  rw [if_neg hb]
  steps
  refine ldV_reads (v := v) ?_ ?_
  · exact hv.of_ent (R := _) (by cancel)
  steps
  refine Triple.pre ?_ (hok ⟨n, b, v⟩ rfl hn)
  simp only [nd, elm]
  cancel

/-- on which side of the end of the path `k` `__insert` puts the new node -/
def Side (E : Env V) (g : Cfg) (hint : Nat) (v : V) : Ctx (Elem V) → Prop
  | [] => True
  | .L _ e _ :: _ => hint ≠ 0 ∨ E.cmp g.cmp (E.kov g.kov v) (E.kov g.kov e.val) = true
  | .R _ _ e :: _ => hint = 0 ∧ E.cmp g.cmp (E.kov g.kov v) (E.kov g.kov e.val) = false

/-- whether the end of the path is a missing left child (or the missing root) -/
def endsL : Ctx (Elem V) → Bool
  | .R _ _ _ :: _ => false
  | _ => true

theorem goesLeft_cps {a h hint : Nat} {g : Cfg} {k : Ctx (Elem V)} {F : HProp V} {value : Loc} {v : V} {Q : β → HProp V} {K : Bool → M V β}
    (hs : Side E g hint v k) (hv : Reads (isShape a h g (plug leaf k) ∗ F) value v)
    (hk : Triple nf (isShape a h g (plug leaf k) ∗ F) (K (endsL k)) Q) :
    Triple nf (isShape a h g (plug leaf k) ∗ F) (goesLeft E a hint (upA h k) value >>= K) Q := by
  refine with_facts fun hf => ?_
  unfold goesLeft
  rw [bind_assoc]
  refine ldN_reads rd_header ?_
  match k, hs, hv, hf, hk with
  | [], _, _, _, hk =>
    rw [if_pos (by rfl), pure_bind]
    exact hk
  | .L c e r :: k, hs, hv, hf, hk =>
    have hl := toList_plug (t := leaf) (k := .L c e r :: k)
    simp only [before_L, toList_leaf, List.append_nil, after_L, List.cons_append] at hl
    rw [if_neg (by simpa using (hf.ne e (by rw [hl]; simp)).1)]
    by_cases h0 : hint = 0
    · rw [if_neg (by simpa using h0)]
      refine valLtNode_cps (e := e) hl hv ?_
      have : E.cmp g.cmp (E.kov g.kov v) (E.kov g.kov e.val) = true := hs.resolve_left (by simpa using h0)
      rw [this]
      exact hk
    · rw [if_pos h0, pure_bind]
      exact hk
  | .R c l e :: k, hs, hv, hf, hk =>
    have hl := toList_plug (t := leaf) (k := .R c l e :: k)
    simp only [before_R, toList_leaf, List.append_nil, after_R, List.append_assoc, List.singleton_append] at hl
    rw [← List.append_assoc] at hl
    rw [if_neg (by simpa using (hf.ne e (by rw [hl]; simp)).1)]
    rw [if_neg (by simpa using hs.1)]
    refine valLtNode_cps (e := e) hl hv ?_
    rw [hs.2]
    exact hk

theorem firstN_eq_iff {X Y : List (Elem V)} {e : Elem V} {h : Nat} (hn : (nodes (X ++ e :: Y)).Nodup) : e.node = firstN (X ++ e :: Y) h ↔ X = [] := by
  cases X with
  | nil => simp
  | cons x X =>
    simp [nodes] at hn ⊢
    intro h; exact hn.1.2.1 h.symm
theorem lastN_snoc {X : List (Elem V)} {e : Elem V} {h : Nat} : lastN (X ++ [e]) h = e.node := by
  simp [nodes, List.getLastD_eq_getLast?]
theorem lastN_eq_iff {X Y : List (Elem V)} {e : Elem V} {h : Nat} (hn : (nodes (X ++ e :: Y)).Nodup) : e.node = lastN (X ++ e :: Y) h ↔ Y = [] := by
  rcases List.eq_nil_or_concat Y with rfl | ⟨Y', y, rfl⟩
  · simp
  · simp only [List.concat_eq_append] at hn ⊢
    have : lastN (X ++ e :: (Y' ++ [y])) h = y.node := by
      rw [← List.cons_append, ← List.append_assoc, lastN_snoc]
    rw [this]
    simp [nodes, List.nodup_append] at hn ⊢
    exact hn.2.1.1.2

theorem firstN_any {X Y : List (Elem V)} {h h' : Nat} (hX : X ≠ []) : firstN (X ++ Y) h = firstN X h' := by
  cases X with
  | nil => exact absurd rfl hX
  | cons x X => rfl
theorem lastN_any {X Y : List (Elem V)} {h h' : Nat} (hY : Y ≠ []) : lastN (X ++ Y) h = lastN Y h' := by
  rcases List.eq_nil_or_concat Y with rfl | ⟨Y', y, rfl⟩
  · exact absurd rfl hY
  · simp only [List.concat_eq_append]
    rw [← List.append_assoc, lastN_snoc, lastN_snoc]

theorem link_spec {a h hint : Nat} {g : Cfg} {k : Ctx (Elem V)} {F : HProp V} {value : Loc} {v : V} {e : Elem V}
    (hs : Side E g hint v k) (hv : Reads (isShape a h g (plug leaf k) ∗ F) value v) :
    Triple nf (isShape a h g (plug leaf k) ∗ F) (link E a hint (upA h k) e.node value)
      (fun _ => hdr a h g (before k ++ after k).length (firstN (before k ++ e :: after k) h) (lastN (before k ++ e :: after k) h) ∗ cx h e.node k ∗ F) := by
  refine with_facts fun hf => ?_
  unfold link
  refine ldN_reads rd_header ?_
  refine goesLeft_cps hs hv ?_
  have hcx := cx_plug (h := h) (t := leaf) (k := k)
  rw [rootA_leaf, tr_leaf, sep_emp] at hcx
  have hl := toList_plug (t := leaf) (k := k)
  rw [toList_leaf, List.append_nil] at hl
  rw [isShape, ← hcx, hl]
  rw [hl] at hf
  match k, hf with
  | [], _ =>
    simp only [endsL, ↓reduceIte, upA_nil, cx_nil, before_nil, after_nil, List.nil_append, CList.firstN_nil, CList.lastN_nil, hdr, CList.firstN_cons, CList.lastN_cons]
    steps
    apply Triple.ret
    cancel
  | .L c e' r :: k, hf =>
    simp only [endsL, ↓reduceIte, upA_cons, Frame.elem_L, cx_L, nd, before_L, after_L, hdr, List.cons_append] at hf ⊢
    step
    have hne : e'.node ≠ h := (hf.ne e' (by simp)).1
    simp only [hne, ↓reduceIte]
    call (leftmost_spec (a := a) (h := h))
    intro x
    xsub
    have hi := firstN_eq_iff (h := h) hf.nodup
    have hlast : lastN (before k ++ e' :: (r.toList ++ after k)) h = lastN (before k ++ e :: e' :: (r.toList ++ after k)) h := by
      rw [lastN_any (h' := h) (by simp), List.append_cons, lastN_any (h' := h) (by simp)]
    rw [hlast]
    by_cases hX : before k = []
    · have := hi.2 hX
      simp only [this, ↓reduceIte]
      rw [← this]
      simp only [hX, List.nil_append, CList.firstN_cons]
      steps
      apply Triple.ret
      cancel
    · have := mt hi.1 hX
      simp only [this, ↓reduceIte]
      rw [firstN_any (h' := h) hX, firstN_any (h' := h) hX]
      apply Triple.ret
      cancel
  | .R c l e' :: k, hf =>
    simp only [endsL, Bool.false_eq_true, ↓reduceIte, upA_cons, Frame.elem_R, cx_R, nd, before_R, after_R, hdr, List.append_assoc, List.singleton_append] at hf ⊢
    step
    call (rightmost_spec (a := a) (h := h))
    intro x
    xsub
    rw [← List.append_assoc] at hf
    have hi := lastN_eq_iff (h := h) hf.nodup
    rw [List.append_assoc] at hi
    have hfirst : firstN (before k ++ (l.toList ++ e' :: after k)) h = firstN (before k ++ (l.toList ++ e' :: e :: after k)) h := by
      have h1 : before k ++ (l.toList ++ e' :: after k) = (before k ++ (l.toList ++ [e'])) ++ after k := by simp
      have h2 : before k ++ (l.toList ++ e' :: e :: after k) = (before k ++ (l.toList ++ [e'])) ++ (e :: after k) := by simp
      rw [h1, h2, firstN_any (X := before k ++ (l.toList ++ [e'])) (h' := h) (by simp), firstN_any (X := before k ++ (l.toList ++ [e'])) (h' := h) (by simp)]
    rw [hfirst]
    by_cases hY : after k = []
    · have := hi.2 hY
      simp only [this, ↓reduceIte]
      rw [← this]
      have h2 : lastN (before k ++ (l.toList ++ e' :: e :: after k)) h = e.node := by
        rw [hY, ← List.append_assoc, List.append_cons, lastN_snoc]
      rw [h2]
      steps
      apply Triple.ret
      cancel
    · have := mt hi.1 hY
      simp only [this, ↓reduceIte]
      have h2 : lastN (before k ++ (l.toList ++ e' :: after k)) h = lastN (before k ++ (l.toList ++ e' :: e :: after k)) h := by
        rw [← List.append_assoc, List.append_cons, lastN_any (h' := h) hY, ← List.append_assoc, List.append_cons, List.append_cons, lastN_any (h' := h) hY]
      rw [h2]
      apply Triple.ret
      cancel

theorem insertF_spec {a h hint N : Nat} {g : Cfg} {k : Ctx (Elem V)} {F : HProp V} {value : Loc} {v : V} (hg : (plug leaf k).Good) (hN : k.length + 1 ≤ N) (hvt : g.vt ≠ 0)
    (hs : Side E g hint v k) (hv0 : value.1 ≠ 0) (hv : Reads (isShape a h g (plug leaf k) ∗ F) value v) :
    Triple nf (isShape a h g (plug leaf k) ∗ F) (insertF E N a hint (upA h k) value)
      (fun r => ∃ₛ t', ⌜t'.Good ∧ ((∃ e : Elem V, r = e.node ∧ e.val = v ∧ r ≠ 0 ∧ t'.toList = before k ++ e :: after k) ∨ (¬ nf ∧ r = 0 ∧ t' = plug leaf k))⌝ ∗ isShape a h g t' ∗ F) := by
  refine with_facts fun hf => ?_
  unfold insertF
  have hp0 : upA h k ≠ 0 := by
    cases k with
    | nil => exact hf.h0
    | cons f k =>
      have hl := toList_plug (t := leaf) (k := f :: k)
      refine (hf.ne f.elem ?_).2.1
      rw [hl]
      cases f <;> simp
  step
  · simpa using hf.a0
  step
  · simpa using hp0
  step
  · simpa using hv0
  refine createNode_cps hf.a0 rd_vtype hvt hv ?_ ?_
  · intro h
    rw [if_pos rfl]
    apply Triple.ret
    xexists (plug leaf k)
    cancel
    exact ⟨hg, Or.inr ⟨h, rfl, rfl⟩⟩
  intro e he hn
  rw [if_neg hn]
  rw [sep_assoc]
  have hv' : Reads (isShape a h g (plug leaf k) ∗ F ∗ nd e 0 0 0 0) value v := hv.of_ent (by cancel)
  refine Triple.bind (link_spec (e := e) hs hv') fun _ => ?_
  obtain ⟨n, h1, h2, h3⟩ := Good.ctx hg
  simp only [nd]
  step
  refine Triple.pre (P' := (fld a 6 h ∗ cx h e.node k ∗ tr (upA h k) (node .red leaf e leaf)) ∗ consts a h g ∗ fld a 7 (before k ++ after k).length ∗
    fld h 3 (firstN (before k ++ e :: after k) h) ∗ fld h 4 (lastN (before k ++ e :: after k) h) ∗ F) ?_ ?_
  · simp only [hdr, tr_node, tr_leaf, nd, rootA_leaf, Color.code]
    cancel
  simp only [RB_leaf] at h1
  subst h1
  refine Triple.bind (Triple.frame (rebalanceInsertF_spec (a := a) (h := h) (z := e) (l := leaf) (r := leaf) h2 hN hf.a0 hn)) fun _ => ?_
  steps
  apply Triple.ret
  have hgood : (insLoop (node .red leaf e leaf) k).blacken.Good := insLoop_good (n := 0) (by simp) rfl h2
  have hlist : (insLoop (node .red leaf e leaf) k).blacken.toList = before k ++ e :: after k := by
    rw [toList_blacken, toList_insLoop]; simp
  xexists (insLoop (node .red leaf e leaf) k).blacken
  rw [sep_assoc]
  refine ent_pure_right ⟨hgood, Or.inl ⟨e, rfl, he, hn, hlist⟩⟩ ?_
  rw [isShape, hlist, hdr]
  have : (before k ++ e :: after k).length = (before k ++ after k).length + 1 := by simp <;> omega
  rw [this]
  cancel

end CC.Tree
