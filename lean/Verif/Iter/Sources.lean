import Verif.Iter.World
import Verif.List.Spec3
import Verif.SList.Spec2
import Verif.Vec.Spec
import Verif.Deq.Rep
import Verif.Tree.Range
/-!
# The iterators of each container
-/
namespace CC.Iter
open CC CC.Tac
open CC.CList (Elem nodes firstN lastN firstN_nil firstN_cons)
variable {V W β : Type} {nf : Prop} {Z : Nat → Nat} {F : HProp V}

/-- an end of a container: its value type and a position -/
def endOf (ty : M V Nat) (p : M V Pay) : M V (Nat × Pay) := do
  let t ← ty
  let p ← p
  pure (t, p)

theorem endOf_spec {C : HProp V} {mt : M V Nat} {mp : M V Pay} {ty : Nat} {p : Pay} (h1 : Triple nf C mt (fun t => ⌜t = ty⌝ ∗ C)) (h2 : Triple nf C mp (fun q => ⌜q = p⌝ ∗ C)) :
    Triple nf C (endOf mt mp) (fun x => ⌜x = (ty, p)⌝ ∗ C) := by
  unfold endOf
  refine Triple.bind h1 fun t => ?_
  refine Triple.pure_left fun ht => ?_
  refine Triple.bind h2 fun q => ?_
  refine Triple.pure_left fun hq => ?_
  subst ht hq
  exact Triple.ret (ent_pure_right rfl (ent_refl _))

theorem node_spec {C : HProp V} {m : M V Addr} {a : Addr} (h : Triple nf C m (fun r => ⌜r = a⌝ ∗ C)) : Triple nf C (do return Pay.node (← m)) (fun p => ⌜p = .node a⌝ ∗ C) := by
  refine Triple.bind h fun r => ?_
  refine Triple.pure_left fun hr => ?_
  subst hr
  exact Triple.ret (ent_pure_right rfl (ent_refl _))

theorem loc_spec {C : HProp V} {m : M V Loc} {b : Addr} {i : Nat} (h : Triple nf C m (fun r => ⌜r = (b, i)⌝ ∗ C)) :
    Triple nf C (do let l ← m; return Pay.pos l.1 l.2) (fun p => ⌜p = .pos b i⌝ ∗ C) := by
  refine Triple.bind h fun r => ?_
  refine Triple.pure_left fun hr => ?_
  subst hr
  exact Triple.ret (ent_pure_right rfl (ent_refl _))

/-- the place of the `i`-th element of a list or tree -/
def boxAt (xs : List (Elem V)) (i : Nat) : Loc := ((xs.map Elem.box).getD i 0, 1)

/-- the node of the `i`-th position (`s` is the end) -/
def nodeAt (xs : List (Elem V)) (s : Addr) (i : Nat) : Addr := firstN (xs.drop i) s

theorem split_at {xs : List (Elem V)} {i : Nat} (hi : i < xs.length) :
    ∃ X e Y, xs = X ++ e :: Y ∧ X.length = i ∧ (∀ s, nodeAt xs s i = e.node) ∧ (∀ s, nodeAt xs s (i + 1) = firstN Y s) ∧ boxAt xs i = (e.box, 1) ∧ xs.drop (i + 1) = Y := by
  refine ⟨xs.take i, xs[i], xs.drop (i + 1), ?_, by simp; omega, ?_, fun s => rfl, ?_, rfl⟩
  · rw [← List.drop_eq_getElem_cons hi, List.take_append_drop]
  · intro s
    unfold nodeAt
    rw [List.drop_eq_getElem_cons hi, firstN_cons]
  · unfold boxAt
    rw [List.getD_eq_getElem?_getD]
    simp [hi]

theorem nodeAt_len {xs : List (Elem V)} {s : Addr} : nodeAt xs s xs.length = s := by
  unfold nodeAt
  rw [List.drop_length, firstN_nil]

theorem nodeAt_cases {xs : List (Elem V)} {s : Addr} {i : Nat} (hi : i ≤ xs.length) : (∃ e ∈ xs, nodeAt xs s i = e.node) ∨ nodeAt xs s i = s := by
  rcases Nat.lt_or_eq_of_le hi with h | h
  · obtain ⟨X, e, Y, hx, _, h1, _⟩ := split_at h
    exact .inl ⟨e, by rw [hx]; simp, h1 s⟩
  · subst h
    exact .inr nodeAt_len

theorem nodeAt_inj {xs : List (Elem V)} {s : Addr} (hd : (nodes xs).Nodup) (hs : ∀ e ∈ xs, e.node ≠ s) {i j : Nat} (hi : i ≤ xs.length) (hj : j ≤ xs.length)
    (he : nodeAt xs s i = nodeAt xs s j) : i = j := by
  have key : ∀ {i}, (h : i < xs.length) → nodeAt xs s i = (nodes xs)[i]'(by simpa using h) := by
    intro i h
    unfold nodeAt
    rw [List.drop_eq_getElem_cons h, firstN_cons]
    simp
  rcases Nat.lt_or_eq_of_le hi with h1 | h1 <;> rcases Nat.lt_or_eq_of_le hj with h2 | h2
  · rw [key h1, key h2] at he
    exact (List.getElem_inj hd).1 he
  · exfalso
    rw [h2, nodeAt_len, key h1] at he
    refine hs xs[i] (List.getElem_mem h1) ?_
    simpa using he
  · exfalso
    rw [h1, nodeAt_len, key h2] at he
    refine hs xs[j] (List.getElem_mem h2) ?_
    simpa using he.symm
  · omega

/-! ### lists -/
section
variable {l s ty : Nat} {xs : List (Elem V)}

/-- `c_list_begin`, c_list.c:642-646 to `c_list_end`, c_list.c:654-658 -/
def listSrc (l s ty : Nat) (xs : List (Elem V)) : Src V where
  kind := .list
  ty := ty
  len := xs.length
  ref := boxAt xs
  first := endOf (CList.ltype l) (do return .node (← CList.begin_ l))
  last := endOf (CList.ltype l) (do return .node (← CList.end_ l))
  pay := fun i => .node (nodeAt xs s i)

/-- `c_list_rbegin`, c_list.c:648-652 to `c_list_rend`, c_list.c:660-664 -/
def listSrcR (l s ty : Nat) (xs : List (Elem V)) : Src V where
  kind := .listR
  ty := ty
  len := xs.length
  ref := fun i => boxAt xs (xs.length - 1 - i)
  first := endOf (CList.ltype l) (do return .node (← CList.rbegin l))
  last := endOf (CList.ltype l) (do return .node (← CList.rend l))
  pay := fun i => .node (nodeAt xs s (xs.length - i))

theorem list_type : Triple nf (CList.isList l s ty xs) (CList.ltype l) (fun t => ⌜t = ty⌝ ∗ CList.isList l s ty xs) := by
  unfold CList.isList CList.hdr
  rw [← bind_pure (CList.ltype l)]
  step
  apply Triple.ret
  cancel

theorem list_node0 {h : Heap V} {F : HProp V} (hh : (CList.isList l s ty xs ∗ F) h) {i : Nat} (hi : i ≤ xs.length) : nodeAt xs s i ≠ 0 := by
  obtain ⟨_, hs, _, _⟩ := CList.isList_facts hh
  rcases nodeAt_cases (s := s) hi with ⟨e, he, h1⟩ | h1
  · rw [h1]
    obtain ⟨R, hR⟩ := CList.elts_mem_blk he
    unfold CList.isList at hh
    rw [hR] at hh
    exact pts_ne_zero (l := (e.node, 0)) (v := .sz 3) (R := _) ((show _ ⊢ₛ _ by cancel) _ hh)
  · rw [h1]; exact hs

theorem list_inj {h : Heap V} {F : HProp V} (hh : (CList.isList l s ty xs ∗ F) h) {i j : Nat} (hi : i ≤ xs.length) (hj : j ≤ xs.length)
    (he : nodeAt xs s i = nodeAt xs s j) : i = j := by
  obtain ⟨_, _, h3, h4⟩ := CList.isList_facts hh
  exact nodeAt_inj h4 h3 hi hj he

theorem list_nxt {i : Nat} (hi : i < xs.length) : Triple nf (CList.isList l s ty xs) (CList.nxt (nodeAt xs s i)) (fun r => ⌜r = nodeAt xs s (i + 1)⌝ ∗ CList.isList l s ty xs) := by
  obtain ⟨X, e, Y, hx, _, h1, h2, _, _⟩ := split_at hi
  rw [h1, h2, hx]
  exact CList.nxt_spec

theorem list_prv {i : Nat} (hi : i < xs.length) : Triple nf (CList.isList l s ty xs) (CList.prv (nodeAt xs s (i + 1))) (fun r => ⌜r = nodeAt xs s i⌝ ∗ CList.isList l s ty xs) := by
  obtain ⟨X, e, Y, hx, _, h1, h2, _, _⟩ := split_at hi
  rw [h1, h2, hx]
  have := CList.prv_spec (nf := nf) (l := l) (s := s) (ty := ty) (X := X ++ [e]) (Y := Y)
  simpa only [CList.lastN_append_cons, CList.lastN_nil, List.append_assoc, List.singleton_append] using this

theorem list_val {i : Nat} (hi : i < xs.length) : Triple nf (CList.isList l s ty xs) (CList.valOf (nodeAt xs s i)) (fun r => ⌜r = boxAt xs i⌝ ∗ CList.isList l s ty xs) := by
  obtain ⟨X, e, Y, hx, _, h1, _, h2, _⟩ := split_at hi
  rw [h1, h2, hx]
  exact CList.valOf_in

theorem list_begin : Triple nf (CList.isList l s ty xs) (CList.begin_ l) (fun r => ⌜r = nodeAt xs s 0⌝ ∗ CList.isList l s ty xs) := CList.begin_spec
theorem list_end : Triple nf (CList.isList l s ty xs) (CList.end_ l) (fun r => ⌜r = nodeAt xs s xs.length⌝ ∗ CList.isList l s ty xs) := by
  rw [nodeAt_len]
  exact CList.end_spec

theorem listSrc_ok (hty : ty ≠ 0) : (listSrc l s ty xs).Ok nf Z (CList.isList l s ty xs) := by
  refine ok_nodal (.inr (.inl rfl)) hty (fun h F hh i hi => ?_) (fun h F hh i j hi hj he => ?_) ?_ ?_ (fun i hi => ?_) (fun _ i hi => ?_) (fun i hi => ?_)
  · intro he
    exact list_node0 hh hi (Pay.node.inj he)
  · exact list_inj hh hi hj (Pay.node.inj he)
  · exact endOf_spec list_type (node_spec list_begin)
  · exact endOf_spec list_type (node_spec list_end)
  · exact node_spec (list_nxt hi)
  · exact node_spec (list_prv hi)
  · exact list_val hi

theorem listSrcR_ok (hty : ty ≠ 0) : (listSrcR l s ty xs).Ok nf Z (CList.isList l s ty xs) := by
  refine ok_nodal (.inr (.inr (.inl rfl))) hty (fun h F hh i hi => ?_) (fun h F hh i j hi hj he => ?_) ?_ ?_ (fun i hi => ?_) (fun _ i hi => ?_) (fun i hi => ?_)
  · intro he
    exact list_node0 hh (by omega) (Pay.node.inj he)
  · have := list_inj hh (by omega) (by omega) (Pay.node.inj he)
    change i ≤ xs.length at hi
    change j ≤ xs.length at hj
    omega
  · exact endOf_spec list_type (node_spec list_end)
  · simp only [listSrcR, Nat.sub_self]
    exact endOf_spec list_type (node_spec list_begin)
  · change i < xs.length at hi
    have := list_prv (nf := nf) (l := l) (s := s) (ty := ty) (xs := xs) (i := xs.length - (i + 1)) (by omega)
    rw [show xs.length - (i + 1) + 1 = xs.length - i by omega] at this
    exact node_spec this
  · change i < xs.length at hi
    have := list_nxt (nf := nf) (l := l) (s := s) (ty := ty) (xs := xs) (i := xs.length - (i + 1)) (by omega)
    rw [show xs.length - (i + 1) + 1 = xs.length - i by omega] at this
    exact node_spec this
  · change i < xs.length at hi
    have := list_prv (nf := nf) (l := l) (s := s) (ty := ty) (xs := xs) (i := xs.length - (i + 1)) (by omega)
    rw [show xs.length - (i + 1) + 1 = xs.length - i by omega] at this
    show Triple nf _ (CList.revDereference (nodeAt xs s (xs.length - i))) _
    unfold CList.revDereference
    refine Triple.bind this fun p => ?_
    refine Triple.pure_left fun hp => ?_
    subst hp
    have := list_val (nf := nf) (l := l) (s := s) (ty := ty) (xs := xs) (i := xs.length - (i + 1)) (by omega)
    rw [show xs.length - (i + 1) = xs.length - 1 - i by omega] at this ⊢
    exact this

/-- a list, forward and backward -/
def listCont (l s ty : Nat) (xs : List (Elem V)) : Cont V := ⟨CList.isList l s ty xs, [listSrc l s ty xs, listSrcR l s ty xs]⟩

theorem listCont_ok (hty : ty ≠ 0) : (listCont l s ty xs).Ok nf Z := by
  refine ⟨fun r hr => ?_, ?_⟩
  · simp only [listCont, List.mem_cons, List.not_mem_nil, or_false] at hr
    rcases hr with rfl | rfl
    · exact listSrc_ok hty
    · exact listSrcR_ok hty
  · simp [listCont, listSrc, listSrcR]

theorem list_owned {i : Nat} (hi : i ≤ xs.length) {h : Heap V} (hh : CList.isList l s ty xs h) : h (nodeAt xs s i, 0) ≠ none := by
  rcases nodeAt_cases (s := s) hi with ⟨e, he, h1⟩ | h1
  · rw [h1]
    obtain ⟨R, hR⟩ := CList.elts_mem_blk he
    unfold CList.isList at hh
    rw [hR] at hh
    rw [cell_of (l := (e.node, 0)) (v := .sz 3) (R := _) hh (by cancel)]
    simp
  · rw [h1]
    unfold CList.isList CList.hdr at hh
    rw [cell_of (l := (s, 0)) (v := .sz 3) (R := _) hh (by cancel)]
    simp

theorem listCont_owned : (listCont l s ty xs).Owned := by
  intro r hr
  simp only [listCont, List.mem_cons, List.not_mem_nil, or_false] at hr
  rcases hr with rfl | rfl
  · intro i hi h hh
    exact list_owned hi hh
  · intro i hi h hh
    exact list_owned (Nat.sub_le _ _) hh
end

/-! ### forward lists -/
section
variable {l a s ty : Nat} {xs : List (Elem V)}

/-- `c_slist_begin`, c_forward_list.c:349-353 to `c_slist_end`, c_forward_list.c:355-359 -/
def slistSrc (l s ty : Nat) (xs : List (Elem V)) : Src V where
  kind := .fwd
  ty := ty
  len := xs.length
  ref := boxAt xs
  first := endOf (SList.ltype l) (do return .node (← SList.begin_ l))
  last := endOf (SList.ltype l) (do return .node (← SList.end_ l))
  pay := fun i => .node (nodeAt xs s i)

theorem slist_type : Triple nf (SList.isSList l a s ty xs) (SList.ltype l) (fun t => ⌜t = ty⌝ ∗ SList.isSList l a s ty xs) := by
  unfold SList.isSList SList.hdr
  rw [← bind_pure (SList.ltype l)]
  step
  apply Triple.ret
  cancel

theorem slistSrc_ok (hty : ty ≠ 0) : (slistSrc l s ty xs).Ok nf Z (SList.isSList l a s ty xs) := by
  refine ok_nodal (.inl rfl) hty (fun h F hh i hi => ?_) (fun h F hh i j hi hj he => ?_) ?_ ?_ (fun i hi => ?_) (fun hb => absurd rfl hb) (fun i hi => ?_)
  · intro he
    have f := SList.isSList_facts hh
    have he := Pay.node.inj he
    rcases nodeAt_cases (s := s) hi with ⟨e, h1, h2⟩ | h1
    · exact f.n0 e h1 (h2.symm.trans he)
    · exact f.s0 (h1.symm.trans he)
  · have f := SList.isSList_facts hh
    exact nodeAt_inj f.nd f.ns hi hj (Pay.node.inj he)
  · exact endOf_spec slist_type (node_spec SList.begin_spec)
  · refine endOf_spec slist_type (node_spec ?_)
    show Triple nf _ _ (fun r => ⌜r = nodeAt xs s xs.length⌝ ∗ _)
    rw [nodeAt_len]
    exact SList.end_spec
  · refine node_spec ?_
    obtain ⟨X, e, Y, hx, _, h1, h2, _, _⟩ := split_at hi
    rw [h1, h2, hx]
    exact SList.nxt_spec'
  · show Triple nf _ (SList.valOf (nodeAt xs s i)) (fun r => ⌜r = boxAt xs i⌝ ∗ _)
    obtain ⟨X, e, Y, hx, _, h1, _, h2, _⟩ := split_at hi
    rw [h1, h2, hx]
    exact SList.valOf_in

/-- a forward list -/
def slistCont (l a s ty : Nat) (xs : List (Elem V)) : Cont V := ⟨SList.isSList l a s ty xs, [slistSrc l s ty xs]⟩

theorem slistCont_ok (hty : ty ≠ 0) : (slistCont l a s ty xs).Ok nf Z := by
  refine ⟨fun r hr => ?_, ?_⟩
  · simp only [slistCont, List.mem_cons, List.not_mem_nil, or_false] at hr
    subst hr
    exact slistSrc_ok hty
  · simp [slistCont]

theorem slistCont_owned : (slistCont l a s ty xs).Owned := by
  intro r hr
  simp only [slistCont, List.mem_cons, List.not_mem_nil, or_false] at hr
  subst hr
  intro i hi h hh
  show h (nodeAt xs s i, 0) ≠ none
  change SList.isSList l a s ty xs h at hh
  rcases nodeAt_cases (s := s) hi with ⟨e, he, h1⟩ | h1
  · rw [h1]
    obtain ⟨X, Y, rfl⟩ := List.append_of_mem he
    unfold SList.isSList at hh
    rw [SList.elts_append, SList.elts, SList.elt] at hh
    rw [cell_of (l := (e.node, 0)) (v := .sz 2) (R := _) hh (by cancel)]
    simp
  · rw [h1]
    unfold SList.isSList SList.hdr at hh
    rw [cell_of (l := (s, 0)) (v := .sz 2) (R := _) hh (by cancel)]
    simp
end

/-! ### vectors -/
section
variable {T : Nat → Ops V} {ty : Nat} {e : ElemSpec nf (T ty) W} {v b cap : Nat} {ws : List W}

/-- `c_vector_begin`, c_vector.c:620-624 to `c_vector_end`, c_vector.c:632-636 -/
def vecSrc (v b ty n : Nat) : Src V where
  kind := .vec
  ty := ty
  len := n
  ref := fun i => (b, 1 + i)
  first := endOf (ldN (v, 4)) (do let l ← Vec.begin_ v; return .pos l.1 l.2)
  last := endOf (ldN (v, 4)) (do let l ← Vec.end_ v; return .pos l.1 l.2)
  pay := fun i => .pos b (1 + i)

/-- `c_vector_rbegin`, c_vector.c:626-630 to `c_vector_rend`, c_vector.c:638-642 -/
def vecSrcR (v b ty n : Nat) : Src V where
  kind := .vecR
  ty := ty
  len := n
  ref := fun i => (b, 1 + (n - 1 - i))
  first := endOf (ldN (v, 4)) (do let l ← Vec.end_ v; return .pos l.1 l.2)
  last := endOf (ldN (v, 4)) (do let l ← Vec.begin_ v; return .pos l.1 l.2)
  pay := fun i => .pos b (1 + n - i)

theorem vec_frame {m : M V β} {p : β → Prop} (h : ∀ n, Triple nf (Vec.vhdr v b n cap ty) m (fun x => ⌜p x⌝ ∗ Vec.vhdr v b n cap ty)) :
    Triple nf (Vec.isVec e v b cap ws) m (fun x => ⌜p x⌝ ∗ Vec.isVec e v b cap ws) := by
  unfold Vec.isVec
  exact Triple.frame_eq (h ws.length)

theorem vec_type {n : Nat} : Triple (V := V) nf (Vec.vhdr v b n cap ty) (ldN (v, 4)) (fun t => ⌜t = ty⌝ ∗ Vec.vhdr v b n cap ty) := by
  unfold Vec.vhdr
  rw [← bind_pure (ldN (v, 4))]
  step
  apply Triple.ret
  cancel

theorem vec_begin : Triple nf (Vec.isVec e v b cap ws) (Vec.begin_ v) (fun r => ⌜r = (b, 1)⌝ ∗ Vec.isVec e v b cap ws) := vec_frame fun _ => Vec.begin_spec
theorem vec_end : Triple nf (Vec.isVec e v b cap ws) (Vec.end_ v) (fun r => ⌜r = (b, 1 + ws.length)⌝ ∗ Vec.isVec e v b cap ws) := by
  unfold Vec.isVec
  exact Triple.frame_eq Vec.end_spec

theorem vecSrc_ok (hty : ty ≠ 0) (hz : 0 < Z ty) (hb : ws.length * Z ty < 2 ^ 63) : (vecSrc v b ty ws.length).Ok nf Z (Vec.isVec e v b cap ws) :=
  ok_pos (b := b) (k := 1) (.inl rfl) hty hz hb rfl rfl (endOf_spec (vec_frame fun _ => vec_type) (loc_spec vec_begin))
    (endOf_spec (vec_frame fun _ => vec_type) (loc_spec vec_end))

theorem vecSrcR_ok (hty : ty ≠ 0) (hz : 0 < Z ty) (hb : ws.length * Z ty < 2 ^ 63) : (vecSrcR v b ty ws.length).Ok nf Z (Vec.isVec e v b cap ws) :=
  ok_posR (b := b) (k := 1) (.inl rfl) (Nat.le_refl _) hty hz hb rfl rfl (endOf_spec (vec_frame fun _ => vec_type) (loc_spec vec_end)) (by
    refine endOf_spec (vec_frame fun _ => vec_type) (loc_spec ?_)
    show Triple nf _ _ (fun r => ⌜r = (b, 1 + ws.length - ws.length)⌝ ∗ _)
    rw [Nat.add_sub_cancel]
    exact vec_begin)

/-- a vector, forward and backward -/
def vecCont (e : ElemSpec nf (T ty) W) (v b cap : Nat) (ws : List W) : Cont V := ⟨Vec.isVec e v b cap ws, [vecSrc v b ty ws.length, vecSrcR v b ty ws.length]⟩

theorem vecCont_ok (hty : ty ≠ 0) (hz : 0 < Z ty) (hb : ws.length * Z ty < 2 ^ 63) : (vecCont e v b cap ws).Ok nf Z := by
  refine ⟨fun r hr => ?_, ?_⟩
  · simp only [vecCont, List.mem_cons, List.not_mem_nil, or_false] at hr
    rcases hr with rfl | rfl
    · exact vecSrc_ok hty hz hb
    · exact vecSrcR_ok hty hz hb
  · simp [vecCont, vecSrc, vecSrcR]

theorem vecCont_owned (hb0 : b ≠ 0) : (vecCont e v b cap ws).Owned := by
  have key : ∀ h, Vec.isVec e v b cap ws h → h (b, 0) ≠ none := by
    intro h hh
    unfold Vec.isVec Vec.vhdr Vec.buf at hh
    rw [if_neg hb0] at hh
    rw [cell_of (l := (b, 0)) (v := .sz cap) (R := _) hh (by cancel)]
    simp
  intro r hr
  simp only [vecCont, List.mem_cons, List.not_mem_nil, or_false] at hr
  rcases hr with rfl | rfl <;> exact fun i hi h hh => key h hh
end

/-! ### deques -/
section
variable {T : Nat → Ops V} {ty : Nat} {e : ElemSpec nf (T ty) W} {v b lo hi : Nat} {ws : List W}

/-- `c_deque_begin`, c_deque.c:717-721 to `c_deque_end`, c_deque.c:729-733 -/
def deqSrc (v b lo ty n : Nat) : Src V where
  kind := .deq
  ty := ty
  len := n
  ref := fun i => (b, 1 + lo + i)
  first := endOf (ldN (v, 5)) (do let l ← Deq.begin_ v; return .pos l.1 l.2)
  last := endOf (ldN (v, 5)) (do let l ← Deq.end_ v; return .pos l.1 l.2)
  pay := fun i => .pos b (1 + lo + i)

/-- `c_deque_rbegin`, c_deque.c:723-727 to `c_deque_rend`, c_deque.c:735-739 -/
def deqSrcR (v b lo ty n : Nat) : Src V where
  kind := .deqR
  ty := ty
  len := n
  ref := fun i => (b, 1 + lo + (n - 1 - i))
  first := endOf (ldN (v, 5)) (do let l ← Deq.end_ v; return .pos l.1 l.2)
  last := endOf (ldN (v, 5)) (do let l ← Deq.begin_ v; return .pos l.1 l.2)
  pay := fun i => .pos b (1 + lo + n - i)

theorem deq_type {n : Nat} : Triple (V := V) nf (Deq.dhdr v b lo n hi ty) (ldN (v, 5)) (fun t => ⌜t = ty⌝ ∗ Deq.dhdr v b lo n hi ty) := by
  unfold Deq.dhdr
  rw [← bind_pure (ldN (v, 5))]
  step
  apply Triple.ret
  cancel

theorem deq_type' : Triple nf (Deq.isDeq e v b lo hi ws) (ldN (v, 5)) (fun t => ⌜t = ty⌝ ∗ Deq.isDeq e v b lo hi ws) := by
  unfold Deq.isDeq
  exact Triple.frame_eq deq_type
theorem deq_begin : Triple nf (Deq.isDeq e v b lo hi ws) (Deq.begin_ v) (fun r => ⌜r = (b, 1 + lo)⌝ ∗ Deq.isDeq e v b lo hi ws) := by
  unfold Deq.isDeq
  exact Triple.frame_eq Deq.begin_spec
theorem deq_end : Triple nf (Deq.isDeq e v b lo hi ws) (Deq.end_ v) (fun r => ⌜r = (b, 1 + lo + ws.length)⌝ ∗ Deq.isDeq e v b lo hi ws) := by
  unfold Deq.isDeq
  exact Triple.frame_eq Deq.end_spec

theorem deqSrc_ok (hty : ty ≠ 0) (hz : 0 < Z ty) (hb : ws.length * Z ty < 2 ^ 63) : (deqSrc v b lo ty ws.length).Ok nf Z (Deq.isDeq e v b lo hi ws) :=
  ok_pos (b := b) (k := 1 + lo) (.inr rfl) hty hz hb rfl rfl (endOf_spec deq_type' (loc_spec deq_begin)) (endOf_spec deq_type' (loc_spec deq_end))

theorem deqSrcR_ok (hty : ty ≠ 0) (hz : 0 < Z ty) (hb : ws.length * Z ty < 2 ^ 63) : (deqSrcR v b lo ty ws.length).Ok nf Z (Deq.isDeq e v b lo hi ws) :=
  ok_posR (b := b) (k := 1 + lo) (.inr rfl) (by omega) hty hz hb rfl rfl (endOf_spec deq_type' (loc_spec deq_end)) (by
    refine endOf_spec deq_type' (loc_spec ?_)
    show Triple nf _ _ (fun r => ⌜r = (b, 1 + lo + ws.length - ws.length)⌝ ∗ _)
    rw [Nat.add_sub_cancel]
    exact deq_begin)

/-- a deque, forward and backward -/
def deqCont (e : ElemSpec nf (T ty) W) (v b lo hi : Nat) (ws : List W) : Cont V := ⟨Deq.isDeq e v b lo hi ws, [deqSrc v b lo ty ws.length, deqSrcR v b lo ty ws.length]⟩

theorem deqCont_ok (hty : ty ≠ 0) (hz : 0 < Z ty) (hb : ws.length * Z ty < 2 ^ 63) : (deqCont e v b lo hi ws).Ok nf Z := by
  refine ⟨fun r hr => ?_, ?_⟩
  · simp only [deqCont, List.mem_cons, List.not_mem_nil, or_false] at hr
    rcases hr with rfl | rfl
    · exact deqSrc_ok hty hz hb
    · exact deqSrcR_ok hty hz hb
  · simp [deqCont, deqSrc, deqSrcR]

theorem deqCont_owned (hb0 : b ≠ 0) : (deqCont e v b lo hi ws).Owned := by
  have key : ∀ h, Deq.isDeq e v b lo hi ws h → h (b, 0) ≠ none := by
    intro h hh
    unfold Deq.isDeq Deq.dhdr Vec.buf at hh
    rw [if_neg hb0] at hh
    rw [cell_of (l := (b, 0)) (v := .sz (lo + ws.length + hi)) (R := _) hh (by cancel)]
    simp
  intro r hr
  simp only [deqCont, List.mem_cons, List.not_mem_nil, or_false] at hr
  rcases hr with rfl | rfl <;> exact fun i hi h hh => key h hh
end

/-! ### trees -/
section
open CC.Tree (isTree with_tree shape_tree)
variable {a h : Nat} {g : Tree.Cfg} {es : List (Elem V)}

/-- `c_tree_begin`, c_tree.c:1001-1005 to `c_tree_end`, c_tree.c:1007-1011 -/
def treeSrc (a h : Nat) (g : Tree.Cfg) (es : List (Elem V)) : Src V where
  kind := .tree
  ty := g.vt
  len := es.length
  ref := boxAt es
  first := endOf (Tree.vtype a) (do return .node (← Tree.begin_ a))
  last := endOf (Tree.vtype a) (do return .node (← Tree.end_ a))
  pay := fun i => .node (nodeAt es h i)

/-- `c_tree_rbegin`, c_tree.c:1013-1017 to `c_tree_rend`, c_tree.c:1019-1023 -/
def treeSrcR (a h : Nat) (g : Tree.Cfg) (es : List (Elem V)) : Src V where
  kind := .treeR
  ty := g.vt
  len := es.length
  ref := fun i => boxAt es (es.length - 1 - i)
  first := endOf (Tree.vtype a) (do return .node (← Tree.rbegin a))
  last := endOf (Tree.vtype a) (do return .node (← Tree.rend a))
  pay := fun i => .node (nodeAt es h (es.length - i))

theorem tree_facts {m : Heap V} {F : HProp V} (hh : (isTree a h g es ∗ F) m) : Tree.Facts a h es ∧ g.vt ≠ 0 := by
  unfold isTree at hh
  rw [hex_sep] at hh
  obtain ⟨t, ht⟩ := hh
  rw [sep_assoc] at ht
  obtain ⟨⟨h1, _, h3⟩, h4⟩ := hpure_sep_apply.1 ht
  have := Tree.shape_facts h4
  rw [h1] at this
  exact ⟨this, h3⟩

theorem tree_node0 {m : Heap V} {F : HProp V} (hh : (isTree a h g es ∗ F) m) {i : Nat} (hi : i ≤ es.length) : nodeAt es h i ≠ 0 := by
  have f := (tree_facts hh).1
  rcases nodeAt_cases (s := h) hi with ⟨e, he, h1⟩ | h1
  · rw [h1]; exact (f.ne e he).2.1
  · rw [h1]; exact f.h0

theorem tree_inj {m : Heap V} {F : HProp V} (hh : (isTree a h g es ∗ F) m) {i j : Nat} (hi : i ≤ es.length) (hj : j ≤ es.length) (he : nodeAt es h i = nodeAt es h j) : i = j := by
  have f := (tree_facts hh).1
  exact nodeAt_inj f.nodup (fun e he => (f.ne e he).1) hi hj he

/-- run on a tree -/
theorem tree_run {m : M V β} {p : β → Prop} (hk : ∀ t : Tree.T (Elem V), t.toList = es → t.Good → g.vt ≠ 0 →
      Triple nf (Tree.isShape a h g t ∗ emp) m (fun x => ⌜p x⌝ ∗ Tree.isShape a h g t ∗ emp)) : Triple nf (isTree a h g es) m (fun x => ⌜p x⌝ ∗ isTree a h g es) := by
  rw [← sep_emp (isTree a h g es)]
  refine with_tree fun t h1 h2 h3 => ?_
  refine Triple.conseq (hk t h1 h2 h3) (ent_refl _) fun x => ?_
  refine sep_mono (ent_refl _) ?_
  exact sep_mono (shape_tree h1 h2 h3) (ent_refl _)

theorem tree_next {i : Nat} (hi : i < es.length) : Triple nf (isTree a h g es) (Tree.iterIncrement (nodeAt es h i)) (fun r => ⌜r = nodeAt es h (i + 1)⌝ ∗ isTree a h g es) := by
  obtain ⟨X, e, Y, hx, _, h1, h2, _, _⟩ := split_at hi
  refine tree_run fun t t1 t2 t3 => ?_
  rw [h1, h2, ← bind_pure (Tree.iterIncrement _)]
  refine Tree.increment_cps (t1.trans hx) ?_
  exact Triple.ret (ent_pure_right rfl (ent_refl _))

theorem tree_prev {i : Nat} (hi : i < es.length) : Triple nf (isTree a h g es) (Tree.iterDecrement (nodeAt es h (i + 1))) (fun r => ⌜r = nodeAt es h i⌝ ∗ isTree a h g es) := by
  obtain ⟨X, e, Y, hx, _, h1, h2, _, _⟩ := split_at hi
  refine tree_run fun t t1 t2 t3 => ?_
  rw [h1, h2, ← bind_pure (Tree.iterDecrement _)]
  have hl : t.toList = (X ++ [e]) ++ Y := by rw [t1, hx]; simp
  refine Tree.decrement_pos hl t2 (by simp) ?_
  refine Triple.ret (ent_pure_right ?_ (ent_refl _))
  rw [CList.lastN_append_cons]
  rfl

theorem tree_val {i : Nat} (hi : i < es.length) : Triple nf (isTree a h g es) (Tree.iterDereference (nodeAt es h i)) (fun r => ⌜r = boxAt es i⌝ ∗ isTree a h g es) := by
  obtain ⟨X, e, Y, hx, _, h1, _, h2, _⟩ := split_at hi
  refine tree_run fun t t1 t2 t3 => ?_
  rw [h1, h2]
  unfold Tree.iterDereference
  refine ldN_reads (Tree.rd_box (t1.trans hx)) ?_
  exact Triple.ret (ent_pure_right rfl (ent_refl _))

theorem tree_type : Triple nf (isTree a h g es) (Tree.vtype a) (fun r => ⌜r = g.vt⌝ ∗ isTree a h g es) := by
  refine tree_run fun t t1 t2 t3 => ?_
  rw [← bind_pure (Tree.vtype a)]
  refine ldN_reads Tree.rd_vtype ?_
  exact Triple.ret (ent_pure_right rfl (ent_refl _))

theorem tree_begin : Triple nf (isTree a h g es) (Tree.begin_ a) (fun r => ⌜r = nodeAt es h 0⌝ ∗ isTree a h g es) := by
  refine tree_run fun t t1 t2 t3 => ?_
  rw [← bind_pure (Tree.begin_ a)]
  refine Tree.begin_cps t3 ?_
  exact Triple.ret (ent_pure_right (by rw [t1]; rfl) (ent_refl _))

theorem tree_end : Triple nf (isTree a h g es) (Tree.end_ a) (fun r => ⌜r = nodeAt es h es.length⌝ ∗ isTree a h g es) := by
  refine tree_run fun t t1 t2 t3 => ?_
  rw [← bind_pure (Tree.end_ a)]
  refine Tree.end_cps t3 ?_
  exact Triple.ret (ent_pure_right (by rw [nodeAt_len]) (ent_refl _))

theorem treeSrc_ok (hty : g.vt ≠ 0) : (treeSrc a h g es).Ok nf Z (isTree a h g es) := by
  refine ok_nodal (.inr (.inr (.inr (.inl rfl)))) hty (fun m F hh i hi => ?_) (fun m F hh i j hi hj he => ?_) ?_ ?_ (fun i hi => ?_) (fun _ i hi => ?_) (fun i hi => ?_)
  · intro he
    exact tree_node0 hh hi (Pay.node.inj he)
  · exact tree_inj hh hi hj (Pay.node.inj he)
  · exact endOf_spec tree_type (node_spec tree_begin)
  · exact endOf_spec tree_type (node_spec tree_end)
  · exact node_spec (tree_next hi)
  · exact node_spec (tree_prev hi)
  · exact tree_val hi

theorem treeSrcR_ok (hty : g.vt ≠ 0) : (treeSrcR a h g es).Ok nf Z (isTree a h g es) := by
  refine ok_nodal (.inr (.inr (.inr (.inr rfl)))) hty (fun m F hh i hi => ?_) (fun m F hh i j hi hj he => ?_) ?_ ?_ (fun i hi => ?_) (fun _ i hi => ?_) (fun i hi => ?_)
  · intro he
    exact tree_node0 hh (by omega) (Pay.node.inj he)
  · have := tree_inj hh (by omega) (by omega) (Pay.node.inj he)
    change i ≤ es.length at hi
    change j ≤ es.length at hj
    omega
  · exact endOf_spec tree_type (node_spec tree_end)
  · simp only [treeSrcR, Nat.sub_self]
    exact endOf_spec tree_type (node_spec tree_begin)
  · change i < es.length at hi
    have := tree_prev (nf := nf) (a := a) (h := h) (g := g) (es := es) (i := es.length - (i + 1)) (by omega)
    rw [show es.length - (i + 1) + 1 = es.length - i by omega] at this
    exact node_spec this
  · change i < es.length at hi
    have := tree_next (nf := nf) (a := a) (h := h) (g := g) (es := es) (i := es.length - (i + 1)) (by omega)
    rw [show es.length - (i + 1) + 1 = es.length - i by omega] at this
    exact node_spec this
  · change i < es.length at hi
    have := tree_prev (nf := nf) (a := a) (h := h) (g := g) (es := es) (i := es.length - (i + 1)) (by omega)
    rw [show es.length - (i + 1) + 1 = es.length - i by omega] at this
    show Triple nf _ (Tree.revDereference (nodeAt es h (es.length - i))) _
    unfold Tree.revDereference
    refine Triple.bind this fun p => ?_
    refine Triple.pure_left fun hp => ?_
    subst hp
    have := tree_val (nf := nf) (a := a) (h := h) (g := g) (es := es) (i := es.length - (i + 1)) (by omega)
    rw [show es.length - (i + 1) = es.length - 1 - i by omega] at this ⊢
    exact this

/-- a tree (set, map, …), forward and backward -/
def treeCont (a h : Nat) (g : Tree.Cfg) (es : List (Elem V)) : Cont V := ⟨isTree a h g es, [treeSrc a h g es, treeSrcR a h g es]⟩

theorem treeCont_ok (hty : g.vt ≠ 0) : (treeCont a h g es).Ok nf Z := by
  refine ⟨fun r hr => ?_, ?_⟩
  · simp only [treeCont, List.mem_cons, List.not_mem_nil, or_false] at hr
    rcases hr with rfl | rfl
    · exact treeSrc_ok hty
    · exact treeSrcR_ok hty
  · simp [treeCont, treeSrc, treeSrcR]

theorem tree_owned {i : Nat} (hi : i ≤ es.length) {m : Heap V} (hh : isTree a h g es m) : m (nodeAt es h i, 0) ≠ none := by
  obtain ⟨t, ht⟩ := hh
  obtain ⟨⟨t1, _, _⟩, ht⟩ := hpure_sep_apply.1 ht
  rcases nodeAt_cases (s := h) hi with ⟨e, he, h1⟩ | h1
  · rw [h1]
    obtain ⟨X, Y, rfl⟩ := List.append_of_mem he
    obtain ⟨R, hR⟩ := Tree.shape_elm (a := a) (h := h) (g := g) t1
    rw [hR, Tree.elm] at ht
    rw [cell_of (l := (e.node, 0)) (v := .sz 5) (R := _) ht (by cancel)]
    simp
  · rw [h1]
    unfold Tree.isShape Tree.hdr Tree.consts at ht
    rw [cell_of (l := (h, 0)) (v := .sz 5) (R := _) ht (by cancel)]
    simp

theorem treeCont_owned : (treeCont a h g es).Owned := by
  intro r hr
  simp only [treeCont, List.mem_cons, List.not_mem_nil, or_false] at hr
  rcases hr with rfl | rfl
  · intro i hi m hh
    exact tree_owned hi hh
  · intro i hi m hh
    exact tree_owned (Nat.sub_le _ _) hh

end

/-! ### all of them -/

/-- The containers of the library: a list, a forward list, a vector, a deque, a tree (a set, map, …), in any state.  For vectors and deques the size in bytes must be a
`ptrdiff_t`; two vectors or deques without storage cannot be told apart by their iterators, so those with storage are meant here. -/
inductive Known (nf : Prop) (Z : Nat → Nat) : Cont V → Prop where
  | list {l s ty xs} : ty ≠ 0 → Known nf Z (listCont l s ty xs)
  | slist {l a s ty xs} : ty ≠ 0 → Known nf Z (slistCont l a s ty xs)
  | vector {W : Type} {T : Nat → Ops V} {ty v b cap : Nat} {e : ElemSpec nf (T ty) W} {ws : List W} : ty ≠ 0 → 0 < Z ty → ws.length * Z ty < 2 ^ 63 → b ≠ 0 → Known nf Z (vecCont e v b cap ws)
  | deque {W : Type} {T : Nat → Ops V} {ty v b lo hi : Nat} {e : ElemSpec nf (T ty) W} {ws : List W} : ty ≠ 0 → 0 < Z ty → ws.length * Z ty < 2 ^ 63 → b ≠ 0 →
      Known nf Z (deqCont e v b lo hi ws)
  | tree {a h g es} : g.vt ≠ 0 → Known nf Z (treeCont a h g es)

theorem Known.ok {c : Cont V} (h : Known nf Z c) : c.Ok nf Z ∧ c.Owned := by
  cases h with
  | list h1 => exact ⟨listCont_ok h1, listCont_owned⟩
  | slist h1 => exact ⟨slistCont_ok h1, slistCont_owned⟩
  | vector h1 h2 h3 h4 => exact ⟨vecCont_ok h1 h2 h3, vecCont_owned h4⟩
  | deque h1 h2 h3 h4 => exact ⟨deqCont_ok h1 h2 h3, deqCont_owned h4⟩
  | tree h1 => exact ⟨treeCont_ok h1, treeCont_owned⟩

end CC.Iter
