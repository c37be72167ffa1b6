import Verif.IAlgo.Spec
import Verif.Algo.Link
import Verif.Iter.Sources
/-!
# The containers without the values of their elements

A container is the memory of its structure and the range of its elements (Verif/Algo/Link.lean).  Moving, comparing and dereferencing iterators needs the structure only.
-/
namespace CC.IAlgo
open CC CC.Tac CC.Iter CC.Algo
open CC.CList (Elem nodes firstN lastN)
variable {V β : Type} {nf : Prop} {Z : Nat → Nat} {F : HProp V}

theorem boxAt_lslots {xs : List (Elem V)} : boxAt xs = lslots xs := by
  funext i
  simp [boxAt, lslots, List.getD_eq_getElem?_getD]

/-! ### lists -/
section
variable {l s ty : Nat} {xs X Y : List (Elem V)} {e : Elem V}

/-- the header and the nodes of a list -/
def listS (l s ty : Nat) (xs : List (Elem V)) : HProp V := CList.hdr l s ty ∗ CList.path s (nodes xs ++ [s]) ∗ frames xs

theorem frames_append : frames (X ++ Y) = (frames X ∗ frames Y) := by
  induction X with
  | nil => rw [List.nil_append, frames, emp_sep]
  | cons x X ih => rw [List.cons_append, frames, frames, ih]; ac_rfl

theorem frames_mem (he : e ∈ xs) : ∃ R, frames xs = (blk e.node 3 ∗ R) := by
  obtain ⟨X, Y, rfl⟩ := List.append_of_mem he
  refine ⟨frames X ∗ fld e.node 3 e.box ∗ blk e.box 1 ∗ frames Y, ?_⟩
  rw [frames_append, frames]
  ac_rfl

theorem frames_ne {n : Nat} {R : HProp V} {h : Heap V} (hh : (blk s n ∗ frames xs ∗ R) h) : ∀ e ∈ xs, e.node ≠ s := by
  intro e he
  obtain ⟨R', hR⟩ := frames_mem he
  rw [hR] at hh
  exact (CList.blk_ne (a := s) (b := e.node) (n := n) (m := 3) (R := R' ∗ R) rfl ((show _ ⊢ₛ _ by cancel) _ hh)).symm

theorem frames_nodup {R : HProp V} {h : Heap V} (hh : (frames xs ∗ R) h) : (nodes xs).Nodup := by
  induction xs generalizing R with
  | nil => simp
  | cons e xs ih =>
    rw [frames] at hh
    simp only [List.map_cons, List.nodup_cons]
    constructor
    · intro hm
      obtain ⟨e', he', h1⟩ := List.mem_map.1 hm
      exact frames_ne (s := e.node) (n := 3) (R := fld e.node 3 e.box ∗ blk e.box 1 ∗ R) ((show _ ⊢ₛ _ by cancel) _ hh) e' he' h1
    · exact ih (R := (blk e.node 3 ∗ fld e.node 3 e.box ∗ blk e.box 1) ∗ R) ((show _ ⊢ₛ _ by cancel) _ hh)

theorem listS_facts {h : Heap V} (hh : (listS l s ty xs ∗ F) h) : l ≠ 0 ∧ s ≠ 0 ∧ (∀ e ∈ xs, e.node ≠ s) ∧ (nodes xs).Nodup := by
  unfold listS CList.hdr at hh
  refine ⟨?_, ?_, ?_, ?_⟩
  · exact pts_ne_zero (l := (l, 0)) (v := .sz 2) (R := _) ((show _ ⊢ₛ _ by cancel) _ hh)
  · exact pts_ne_zero (l := (s, 0)) (v := .sz 3) (R := _) ((show _ ⊢ₛ _ by cancel) _ hh)
  · exact frames_ne (n := 3) (R := (blk l 2 ∗ fld l 1 s ∗ fld l 2 ty ∗ fld s 3 0) ∗ CList.path s (nodes xs ++ [s]) ∗ F) ((show _ ⊢ₛ _ by cancel) _ hh)
  · exact frames_nodup (R := (blk l 2 ∗ fld l 1 s ∗ fld l 2 ty ∗ blk s 3 ∗ fld s 3 0) ∗ CList.path s (nodes xs ++ [s]) ∗ F) ((show _ ⊢ₛ _ by cancel) _ hh)

theorem listS_node0 {h : Heap V} (hh : (listS l s ty xs ∗ F) h) {i : Nat} (hi : i ≤ xs.length) : nodeAt xs s i ≠ 0 := by
  obtain ⟨_, hs, _, _⟩ := listS_facts hh
  rcases nodeAt_cases (s := s) hi with ⟨e, he, h1⟩ | h1
  · rw [h1]
    obtain ⟨R, hR⟩ := frames_mem he
    unfold listS at hh
    rw [hR] at hh
    exact pts_ne_zero (l := (e.node, 0)) (v := .sz 3) (R := _) ((show _ ⊢ₛ _ by cancel) _ hh)
  · rw [h1]; exact hs

theorem listS_inj {h : Heap V} (hh : (listS l s ty xs ∗ F) h) {i j : Nat} (hi : i ≤ xs.length) (hj : j ≤ xs.length) (he : nodeAt xs s i = nodeAt xs s j) : i = j := by
  obtain ⟨_, _, h3, h4⟩ := listS_facts hh
  exact nodeAt_inj h4 h3 hi hj he

theorem listS_type : Triple nf (listS l s ty xs) (CList.ltype l) (fun t => ⌜t = ty⌝ ∗ listS l s ty xs) := by
  unfold listS CList.hdr
  rw [← bind_pure (CList.ltype l)]
  step
  apply Triple.ret
  cancel

theorem listS_l0 {m : M V β} {Q : β → HProp V} (h : l ≠ 0 → Triple nf (listS l s ty xs) m Q) : Triple nf (listS l s ty xs) m Q :=
  Triple.fact (fun _ hh => (listS_facts (F := emp) (by rw [sep_emp]; exact hh)).1) h

theorem listS_begin : Triple nf (listS l s ty xs) (CList.begin_ l) (fun r => ⌜r = nodeAt xs s 0⌝ ∗ listS l s ty xs) := by
  refine listS_l0 fun hl => ?_
  simp only [CList.begin_, listS, CList.hdr, CList.path_first, CList.link]
  steps
  · simpa using hl
  steps
  apply Triple.ret
  cancel

theorem listS_end : Triple nf (listS l s ty xs) (CList.end_ l) (fun r => ⌜r = nodeAt xs s xs.length⌝ ∗ listS l s ty xs) := by
  refine listS_l0 fun hl => ?_
  rw [nodeAt_len]
  simp only [CList.end_, listS, CList.hdr]
  steps
  · simpa using hl
  steps
  apply Triple.ret
  cancel

theorem listS_nxt {i : Nat} (hi : i < xs.length) : Triple nf (listS l s ty xs) (CList.nxt (nodeAt xs s i)) (fun r => ⌜r = nodeAt xs s (i + 1)⌝ ∗ listS l s ty xs) := by
  obtain ⟨X, e, Y, hx, _, h1, h2, _, _⟩ := split_at hi
  rw [h1, h2, hx, listS, CList.path_split_cons]
  rw [show (CList.link e.node (firstN Y s) : HProp V) = (fld e.node 2 (firstN Y s) ∗ fld (firstN Y s) 1 e.node) from rfl]
  steps
  apply Triple.ret
  cancel

theorem listS_prv {i : Nat} (hi : i < xs.length) : Triple nf (listS l s ty xs) (CList.prv (nodeAt xs s (i + 1))) (fun r => ⌜r = nodeAt xs s i⌝ ∗ listS l s ty xs) := by
  obtain ⟨X, e, Y, hx, _, h1, h2, _, _⟩ := split_at hi
  rw [h1, h2, hx]
  have : Triple nf (listS l s ty ((X ++ [e]) ++ Y)) (CList.prv (firstN Y s)) (fun r => ⌜r = lastN (X ++ [e]) s⌝ ∗ listS l s ty ((X ++ [e]) ++ Y)) := by
    rw [listS, CList.path_split]
    rw [show (CList.link (lastN (X ++ [e]) s) (firstN Y s) : HProp V) = (fld (lastN (X ++ [e]) s) 2 (firstN Y s) ∗ fld (firstN Y s) 1 (lastN (X ++ [e]) s)) from rfl]
    steps
    apply Triple.ret
    cancel
  simpa only [CList.lastN_append_cons, CList.lastN_nil, List.append_assoc, List.singleton_append] using this

theorem listS_val {i : Nat} (hi : i < xs.length) : Triple nf (listS l s ty xs) (CList.valOf (nodeAt xs s i)) (fun r => ⌜r = boxAt xs i⌝ ∗ listS l s ty xs) := by
  obtain ⟨X, e, Y, hx, _, h1, _, h2, _⟩ := split_at hi
  rw [h1, h2, hx, listS, frames_append, frames]
  unfold CList.valOf
  steps
  apply Triple.ret
  cancel

theorem listS_ok (hty : ty ≠ 0) : (listSrc l s ty xs).Ok nf Z (listS l s ty xs) := by
  refine ok_nodal (.inr (.inl rfl)) hty (fun h F hh i hi => ?_) (fun h F hh i j hi hj he => ?_) ?_ ?_ (fun i hi => ?_) (fun _ i hi => ?_) (fun i hi => ?_)
  · intro he
    exact listS_node0 hh hi (Pay.node.inj he)
  · exact listS_inj hh hi hj (Pay.node.inj he)
  · exact endOf_spec listS_type (node_spec listS_begin)
  · exact endOf_spec listS_type (node_spec listS_end)
  · exact node_spec (listS_nxt hi)
  · exact node_spec (listS_prv hi)
  · exact listS_val hi

theorem listSR_ok (hty : ty ≠ 0) : (listSrcR l s ty xs).Ok nf Z (listS l s ty xs) := by
  refine ok_nodal (.inr (.inr (.inl rfl))) hty (fun h F hh i hi => ?_) (fun h F hh i j hi hj he => ?_) ?_ ?_ (fun i hi => ?_) (fun _ i hi => ?_) (fun i hi => ?_)
  · intro he
    exact listS_node0 hh (by omega) (Pay.node.inj he)
  · have := listS_inj hh (by omega) (by omega) (Pay.node.inj he)
    change i ≤ xs.length at hi
    change j ≤ xs.length at hj
    omega
  · exact endOf_spec listS_type (node_spec listS_end)
  · simp only [listSrcR, Nat.sub_self]
    exact endOf_spec listS_type (node_spec listS_begin)
  · change i < xs.length at hi
    have := listS_prv (nf := nf) (l := l) (s := s) (ty := ty) (xs := xs) (i := xs.length - (i + 1)) (by omega)
    rw [show xs.length - (i + 1) + 1 = xs.length - i by omega] at this
    exact node_spec this
  · change i < xs.length at hi
    have := listS_nxt (nf := nf) (l := l) (s := s) (ty := ty) (xs := xs) (i := xs.length - (i + 1)) (by omega)
    rw [show xs.length - (i + 1) + 1 = xs.length - i by omega] at this
    exact node_spec this
  · change i < xs.length at hi
    have := listS_prv (nf := nf) (l := l) (s := s) (ty := ty) (xs := xs) (i := xs.length - (i + 1)) (by omega)
    rw [show xs.length - (i + 1) + 1 = xs.length - i by omega] at this
    show Triple nf _ (CList.revDereference (nodeAt xs s (xs.length - i))) _
    unfold CList.revDereference
    refine Triple.bind this fun p => ?_
    refine Triple.pure_left fun hp => ?_
    subst hp
    have := listS_val (nf := nf) (l := l) (s := s) (ty := ty) (xs := xs) (i := xs.length - (i + 1)) (by omega)
    rw [show xs.length - (i + 1) = xs.length - 1 - i by omega] at this ⊢
    exact this
end

/-! ### forward lists -/
section
variable {l a s ty : Nat} {xs X Y : List (Elem V)} {e : Elem V}

/-- the header and the nodes of a forward list -/
def slistS (l a s ty : Nat) (xs : List (Elem V)) : HProp V := SList.hdr l a s ty ∗ SList.path a (nodes xs ++ [s]) ∗ sframes xs

theorem sframes_append : sframes (X ++ Y) = (sframes X ∗ sframes Y) := by
  induction X with
  | nil => rw [List.nil_append, sframes, emp_sep]
  | cons x X ih => rw [List.cons_append, sframes, sframes, ih]; ac_rfl

theorem sframes_mem (he : e ∈ xs) : ∃ R, sframes xs = (blk e.node 2 ∗ R) := by
  obtain ⟨X, Y, rfl⟩ := List.append_of_mem he
  refine ⟨sframes X ∗ fld e.node 2 e.box ∗ blk e.box 1 ∗ sframes Y, ?_⟩
  rw [sframes_append, sframes]
  ac_rfl

theorem sframes_ne {n : Nat} {R : HProp V} {h : Heap V} (hh : (blk s n ∗ sframes xs ∗ R) h) : ∀ e ∈ xs, e.node ≠ s := by
  intro e he
  obtain ⟨R', hR⟩ := sframes_mem he
  rw [hR] at hh
  exact (CList.blk_ne (a := s) (b := e.node) (n := n) (m := 2) (R := R' ∗ R) rfl ((show _ ⊢ₛ _ by cancel) _ hh)).symm

theorem sframes_nodup {R : HProp V} {h : Heap V} (hh : (sframes xs ∗ R) h) : (nodes xs).Nodup := by
  induction xs generalizing R with
  | nil => simp
  | cons e xs ih =>
    rw [sframes] at hh
    simp only [List.map_cons, List.nodup_cons]
    constructor
    · intro hm
      obtain ⟨e', he', h1⟩ := List.mem_map.1 hm
      exact sframes_ne (s := e.node) (n := 2) (R := fld e.node 2 e.box ∗ blk e.box 1 ∗ R) ((show _ ⊢ₛ _ by cancel) _ hh) e' he' h1
    · exact ih (R := (blk e.node 2 ∗ fld e.node 2 e.box ∗ blk e.box 1) ∗ R) ((show _ ⊢ₛ _ by cancel) _ hh)

theorem slistS_facts {h : Heap V} (hh : (slistS l a s ty xs ∗ F) h) : l ≠ 0 ∧ s ≠ 0 ∧ (∀ e ∈ xs, e.node ≠ s) ∧ (nodes xs).Nodup := by
  unfold slistS SList.hdr at hh
  refine ⟨?_, ?_, ?_, ?_⟩
  · exact pts_ne_zero (l := (l, 0)) (v := .sz 3) (R := _) ((show _ ⊢ₛ _ by cancel) _ hh)
  · exact pts_ne_zero (l := (s, 0)) (v := .sz 2) (R := _) ((show _ ⊢ₛ _ by cancel) _ hh)
  · exact sframes_ne (n := 2) (R := (blk l 3 ∗ fld l 1 a ∗ fld l 2 s ∗ fld l 3 ty ∗ blk a 2 ∗ fld a 2 0 ∗ fld s 1 0 ∗ fld s 2 0) ∗ SList.path a (nodes xs ++ [s]) ∗ F) ((show _ ⊢ₛ _ by cancel) _ hh)
  · exact sframes_nodup (R := (blk l 3 ∗ fld l 1 a ∗ fld l 2 s ∗ fld l 3 ty ∗ blk a 2 ∗ fld a 2 0 ∗ blk s 2 ∗ fld s 1 0 ∗ fld s 2 0) ∗ SList.path a (nodes xs ++ [s]) ∗ F)
      ((show _ ⊢ₛ _ by cancel) _ hh)

theorem slistS_node0 {h : Heap V} (hh : (slistS l a s ty xs ∗ F) h) {i : Nat} (hi : i ≤ xs.length) : nodeAt xs s i ≠ 0 := by
  obtain ⟨_, hs, _, _⟩ := slistS_facts hh
  rcases nodeAt_cases (s := s) hi with ⟨e, he, h1⟩ | h1
  · rw [h1]
    obtain ⟨R, hR⟩ := sframes_mem he
    unfold slistS at hh
    rw [hR] at hh
    exact pts_ne_zero (l := (e.node, 0)) (v := .sz 2) (R := _) ((show _ ⊢ₛ _ by cancel) _ hh)
  · rw [h1]; exact hs

theorem slistS_type : Triple nf (slistS l a s ty xs) (SList.ltype l) (fun t => ⌜t = ty⌝ ∗ slistS l a s ty xs) := by
  unfold slistS SList.hdr
  rw [← bind_pure (SList.ltype l)]
  step
  apply Triple.ret
  cancel

theorem slistS_l0 {m : M V β} {Q : β → HProp V} (h : l ≠ 0 → Triple nf (slistS l a s ty xs) m Q) : Triple nf (slistS l a s ty xs) m Q :=
  Triple.fact (fun _ hh => (slistS_facts (F := emp) (by rw [sep_emp]; exact hh)).1) h

theorem slistS_begin : Triple nf (slistS l a s ty xs) (SList.begin_ l) (fun r => ⌜r = nodeAt xs s 0⌝ ∗ slistS l a s ty xs) := by
  refine slistS_l0 fun hl => ?_
  simp only [SList.begin_, slistS, SList.hdr, SList.path_first]
  steps
  · simpa using hl
  steps
  apply Triple.ret
  cancel

theorem slistS_end : Triple nf (slistS l a s ty xs) (SList.end_ l) (fun r => ⌜r = nodeAt xs s xs.length⌝ ∗ slistS l a s ty xs) := by
  refine slistS_l0 fun hl => ?_
  rw [nodeAt_len]
  simp only [SList.end_, slistS, SList.hdr]
  steps
  · simpa using hl
  steps
  apply Triple.ret
  cancel

theorem slistS_nxt {i : Nat} (hi : i < xs.length) : Triple nf (slistS l a s ty xs) (SList.nxt (nodeAt xs s i)) (fun r => ⌜r = nodeAt xs s (i + 1)⌝ ∗ slistS l a s ty xs) := by
  obtain ⟨X, e, Y, hx, _, h1, h2, _, _⟩ := split_at hi
  rw [h1, h2, hx]
  have : Triple nf (slistS l a s ty ((X ++ [e]) ++ Y)) (SList.nxt (lastN (X ++ [e]) a)) (fun r => ⌜r = firstN Y s⌝ ∗ slistS l a s ty ((X ++ [e]) ++ Y)) := by
    rw [slistS, SList.path_split]
    steps
    apply Triple.ret
    cancel
  simpa only [CList.lastN_append_cons, CList.lastN_nil, List.append_assoc, List.singleton_append] using this

theorem slistS_val {i : Nat} (hi : i < xs.length) : Triple nf (slistS l a s ty xs) (SList.valOf (nodeAt xs s i)) (fun r => ⌜r = boxAt xs i⌝ ∗ slistS l a s ty xs) := by
  obtain ⟨X, e, Y, hx, _, h1, _, h2, _⟩ := split_at hi
  rw [h1, h2, hx, slistS, sframes_append, sframes]
  unfold SList.valOf
  steps
  apply Triple.ret
  cancel

theorem slistS_ok (hty : ty ≠ 0) : (slistSrc l s ty xs).Ok nf Z (slistS l a s ty xs) := by
  refine ok_nodal (.inl rfl) hty (fun h F hh i hi => ?_) (fun h F hh i j hi hj he => ?_) ?_ ?_ (fun i hi => ?_) (fun hb => absurd rfl hb) (fun i hi => ?_)
  · intro he
    exact slistS_node0 hh hi (Pay.node.inj he)
  · obtain ⟨_, _, h3, h4⟩ := slistS_facts hh
    exact nodeAt_inj h4 h3 hi hj (Pay.node.inj he)
  · exact endOf_spec slistS_type (node_spec slistS_begin)
  · exact endOf_spec slistS_type (node_spec slistS_end)
  · exact node_spec (slistS_nxt hi)
  · exact slistS_val hi
end

/-! ### vectors -/
section
variable {ty v b cap n : Nat}

/-- the header and the unused slots of a vector -/
def vecS (ty v b cap n : Nat) : HProp V := Vec.vhdr v b n cap ty ∗ ⌜n ≤ cap⌝ ∗ raws b (1 + n) (cap - n)

theorem vecS_begin : Triple (V := V) nf (vecS ty v b cap n) (Vec.begin_ v) (fun r => ⌜r = (b, 1)⌝ ∗ vecS ty v b cap n) := by
  unfold vecS
  exact Triple.frame_eq Vec.begin_spec
theorem vecS_end : Triple (V := V) nf (vecS ty v b cap n) (Vec.end_ v) (fun r => ⌜r = (b, 1 + n)⌝ ∗ vecS ty v b cap n) := by
  unfold vecS
  exact Triple.frame_eq Vec.end_spec
theorem vecS_type : Triple (V := V) nf (vecS ty v b cap n) (ldN (v, 4)) (fun t => ⌜t = ty⌝ ∗ vecS ty v b cap n) := by
  unfold vecS
  exact Triple.frame_eq vec_type

theorem vecS_ok (hty : ty ≠ 0) (hz : 0 < Z ty) (hb : n * Z ty < 2 ^ 63) : (vecSrc (V := V) v b ty n).Ok nf Z (vecS ty v b cap n) :=
  ok_pos (b := b) (k := 1) (.inl rfl) hty hz hb rfl rfl (endOf_spec vecS_type (loc_spec vecS_begin)) (endOf_spec vecS_type (loc_spec vecS_end))

theorem vecSR_ok (hty : ty ≠ 0) (hz : 0 < Z ty) (hb : n * Z ty < 2 ^ 63) : (vecSrcR (V := V) v b ty n).Ok nf Z (vecS ty v b cap n) :=
  ok_posR (b := b) (k := 1) (.inl rfl) (Nat.le_refl _) hty hz hb rfl rfl (endOf_spec vecS_type (loc_spec vecS_end)) (by
    refine endOf_spec vecS_type (loc_spec ?_)
    show Triple nf _ _ (fun r => ⌜r = (b, 1 + n - n)⌝ ∗ _)
    rw [Nat.add_sub_cancel]
    exact vecS_begin)
end

/-! ### deques -/
section
variable {ty v b lo hi n : Nat}

/-- the header and the unused slots of a deque -/
def deqS (ty v b lo hi n : Nat) : HProp V := Deq.dhdr v b lo n hi ty ∗ raws b 1 lo ∗ raws b (1 + lo + n) hi

theorem deqS_begin : Triple (V := V) nf (deqS ty v b lo hi n) (Deq.begin_ v) (fun r => ⌜r = (b, 1 + lo)⌝ ∗ deqS ty v b lo hi n) := by
  unfold deqS
  exact Triple.frame_eq Deq.begin_spec
theorem deqS_end : Triple (V := V) nf (deqS ty v b lo hi n) (Deq.end_ v) (fun r => ⌜r = (b, 1 + lo + n)⌝ ∗ deqS ty v b lo hi n) := by
  unfold deqS
  exact Triple.frame_eq Deq.end_spec
theorem deqS_type : Triple (V := V) nf (deqS ty v b lo hi n) (ldN (v, 5)) (fun t => ⌜t = ty⌝ ∗ deqS ty v b lo hi n) := by
  unfold deqS
  exact Triple.frame_eq deq_type

theorem deqS_ok (hty : ty ≠ 0) (hz : 0 < Z ty) (hb : n * Z ty < 2 ^ 63) : (deqSrc (V := V) v b lo ty n).Ok nf Z (deqS ty v b lo hi n) :=
  ok_pos (b := b) (k := 1 + lo) (.inr rfl) hty hz hb rfl rfl (endOf_spec deqS_type (loc_spec deqS_begin)) (endOf_spec deqS_type (loc_spec deqS_end))

theorem deqSR_ok (hty : ty ≠ 0) (hz : 0 < Z ty) (hb : n * Z ty < 2 ^ 63) : (deqSrcR (V := V) v b lo ty n).Ok nf Z (deqS ty v b lo hi n) :=
  ok_posR (b := b) (k := 1 + lo) (.inr rfl) (by omega) hty hz hb rfl rfl (endOf_spec deqS_type (loc_spec deqS_end)) (by
    refine endOf_spec deqS_type (loc_spec ?_)
    show Triple nf _ _ (fun r => ⌜r = (b, 1 + lo + n - n)⌝ ∗ _)
    rw [Nat.add_sub_cancel]
    exact deqS_begin)
end

end CC.IAlgo
