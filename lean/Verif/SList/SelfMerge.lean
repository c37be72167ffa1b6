import Verif.List.SelfMerge
import Verif.SList.Spec3
/-!
# `c_slist_merge` with the list itself as second argument
-/
namespace CC.SList
open CC.Tac
open CC.CList (Elem nodes vals firstN lastN firstN_nil firstN_cons lastN_nil lastN_cons lastN_append_cons firstN_append)
variable {V : Type} {nf : Prop} {l a s : Addr} {ty : Nat} {comp : V → V → Bool}

/-- one round of the loop of `c_slist_merge_by` (c_forward_list.c:499-506): the new `node`, `none` at the end of the loop -/
def mergeIter (comp : V → V → Bool) (node last otherNode otherLast : Addr) : M V (Option Addr) := do
  let x ← nxt node
  if x ≠ last then do
    let y ← nxt otherNode
    if y ≠ otherLast then do
      let y ← nxt otherNode
      let ry ← valOf y
      let x ← nxt node
      let rx ← valOf x
      let vy ← ldV ry
      let vx ← ldV rx
      if comp vy vx then do
        let y ← nxt otherNode
        let yn ← nxt y
        transfer node otherNode yn
        pure (some node)
      else do
        let node ← nxt node
        pure (some node)
    else pure none
  else pure none

def orElse (f : Addr → M V Addr) (node : Addr) : Option Addr → M V Addr
  | some n => f n
  | none => pure node

theorem mergeStep (comp : V → V → Bool) (f : Addr → M V Addr) (node last otherNode otherLast : Addr) :
    (do
      let x ← nxt node
      if x ≠ last then do
          let y ← nxt otherNode
          if y ≠ otherLast then do
              let y ← nxt otherNode
              let ry ← valOf y
              let x ← nxt node
              let rx ← valOf x
              let vy ← ldV ry
              let vx ← ldV rx
              if comp vy vx = true then do
                  let y ← nxt otherNode
                  let yn ← nxt y
                  transfer node otherNode yn
                  f node
                else do
                  let node ← nxt node
                  f node
            else pure node
        else pure node : M V Addr) =
    (mergeIter comp node last otherNode otherLast >>= orElse f node) := by
  unfold mergeIter
  simp only [bind_assoc]
  refine bind_congr fun _ => ?_
  split
  · simp only [bind_assoc]
    refine bind_congr fun _ => ?_
    split
    · simp only [bind_assoc]
      iterate 8 refine bind_congr fun _ => ?_
      split <;> simp only [bind_assoc, pure_bind, orElse]
    · simp only [pure_bind, orElse]
  · simp only [pure_bind, orElse]

theorem mergeLoop_eq (node last otherNode otherLast : Addr) : mergeLoop comp node last otherNode otherLast =
    (mergeIter comp node last otherNode otherLast >>= orElse (fun n => mergeLoop comp n last otherNode otherLast) node) := by
  rw [mergeLoop]
  exact mergeStep comp (fun n => mergeLoop comp n last otherNode otherLast) _ _ _ _

/-- moving everything from the front up to a node behind that node closes a ring -/
theorem transfer_ring {m : Elem V} {W : List (Elem V)} {t : Addr} (h1 : lastN W m.node ≠ a) (h2 : a ≠ t) (hM : ∀ e ∈ m :: W, e.node ≠ t) :
    Triple (V := V) nf (fld a 1 m.node ∗ path m.node (nodes W) ∗ fld (lastN W m.node) 1 t) (transfer (lastN W m.node) a t)
      (fun _ => fld a 1 t ∗ path m.node (nodes W) ∗ fld (lastN W m.node) 1 m.node) := by
  unfold transfer
  rw [if_pos ⟨h1, h2⟩]
  steps
  rw [if_pos (hM m (by simp))]
  steps
  refine Triple.bind_frame (findPrev_spec (nf := nf) (p := m.node) (t := t) (M := W) (fun e he => hM e (by simp [he]))) (R := fld a 1 m.node) ?_ ?_
  · rw [path_snoc]; cancel
  · intro r
    rw [path_snoc]
    xsub
    steps
    apply Triple.ret
    cancel

theorem iter_end {xs : List (Elem V)} : Triple nf (isSList l a s ty xs) (mergeIter comp (lastN xs a) s a s) (fun r => ⌜r = none⌝ ∗ isSList l a s ty xs) := by
  unfold mergeIter
  have := nxt_spec (nf := nf) (l := l) (a := a) (s := s) (ty := ty) (X := xs) (Y := [])
  rw [List.append_nil] at this
  call this
  intro r; xsub
  rw [if_neg (by simp)]
  apply Triple.ret
  cancel

theorem nxt_first {xs : List (Elem V)} : Triple nf (isSList l a s ty xs) (nxt a) (fun r => ⌜r = firstN xs s⌝ ∗ isSList l a s ty xs) :=
  nxt_spec (X := [])

theorem iter_ge {A B R : List (Elem V)} {b q : Elem V} (h : A ++ b :: B = q :: R) (hc : comp q.val b.val = false) :
    Triple nf (isSList l a s ty (A ++ b :: B)) (mergeIter comp (lastN A a) s a s) (fun r => ⌜r = some b.node⌝ ∗ isSList l a s ty (A ++ b :: B)) := by
  apply list_facts0; intro f
  unfold mergeIter
  call (nxt_spec (l := l)); intro r; xsub
  rw [firstN_cons, if_pos (f.ns b (by simp))]
  call nxt_first; intro r; xsub
  rw [h, firstN_cons, if_pos (f.ns q (by simp [h]))]
  call nxt_first; intro r; xsub
  rw [firstN_cons]
  have hv := valOf_in (nf := nf) (l := l) (a := a) (s := s) (ty := ty) (X := []) (Y := R) (e := q)
  have hd := ldV_in (nf := nf) (l := l) (a := a) (s := s) (ty := ty) (X := []) (Y := R) (e := q)
  rw [List.nil_append] at hv hd
  call hv; intro r; xsub
  rw [← h]
  call (nxt_spec (l := l)); intro r; xsub
  rw [firstN_cons]
  call (valOf_in (l := l)); intro r; xsub
  rw [h]
  call hd; intro r; xsub
  rw [← h]
  call (ldV_in (l := l)); intro r; xsub
  rw [if_neg (by simp [hc])]
  call (nxt_spec (l := l)); intro r; xsub
  apply Triple.ret
  cancel

theorem iter_lt {q y c : Elem V} {Q Z : List (Elem V)} (hc : comp q.val c.val = true) :
    Triple nf (isSList l a s ty (q :: y :: Q ++ c :: Z)) (mergeIter comp (lastN (q :: y :: Q) a) s a s)
      (fun r => ⌜r = some (lastN (y :: Q) a)⌝ ∗ isSList l a s ty ((y :: Q) ++ [q] ++ c :: Z)) := by
  apply list_facts0; intro f
  unfold mergeIter
  call (nxt_spec (l := l)); intro r; xsub
  rw [firstN_cons, if_pos (f.ns c (by simp))]
  call nxt_first; intro r; xsub
  rw [show firstN (q :: y :: Q ++ c :: Z) s = q.node from rfl, if_pos (f.ns q (by simp))]
  call nxt_first; intro r; xsub
  rw [show firstN (q :: y :: Q ++ c :: Z) s = q.node from rfl, show q :: y :: Q ++ c :: Z = q :: y :: (Q ++ c :: Z) from rfl]
  have hv := valOf_in (nf := nf) (l := l) (a := a) (s := s) (ty := ty) (X := []) (Y := y :: (Q ++ c :: Z)) (e := q)
  have hd := ldV_in (nf := nf) (l := l) (a := a) (s := s) (ty := ty) (X := []) (Y := y :: (Q ++ c :: Z)) (e := q)
  have hn := nxt_spec' (nf := nf) (l := l) (a := a) (s := s) (ty := ty) (X := []) (Y := y :: (Q ++ c :: Z)) (e := q)
  rw [List.nil_append] at hv hd hn
  have h : q :: y :: (Q ++ c :: Z) = q :: y :: Q ++ c :: Z := rfl
  call hv; intro r; xsub
  rw [h]
  call (nxt_spec (l := l)); intro r; xsub
  rw [firstN_cons]
  call (valOf_in (l := l)); intro r; xsub
  rw [← h]
  call hd; intro r; xsub
  rw [h]
  call (ldV_in (l := l)); intro r; xsub
  rw [if_pos hc]
  call nxt_first; intro r; xsub
  rw [show firstN (q :: y :: Q ++ c :: Z) s = q.node from rfl, ← h]
  call hn; intro r; xsub
  rw [firstN_cons]
  have ht := transfer_later (nf := nf) (l := l) (a := a) (s := s) (ty := ty) (X := []) (M := [q]) (Y := y :: Q) (Z := c :: Z) (by simp)
  simp only [List.nil_append, firstN_cons, lastN_nil, List.cons_append] at ht
  call ht; intro _
  apply Triple.ret
  simp only [List.cons_append, lastN_cons]
  cancel

/-- the state after the second round on `q :: c :: Z` with `q < c`: `q` is linked to itself -/
def knot (l a s : Addr) (ty : Nat) (q c : Elem V) (Z : List (Elem V)) : HProp V :=
  hdr l a s ty ∗ fld a 1 c.node ∗ fld q.node 1 q.node ∗ path c.node (nodes Z ++ [s]) ∗ elt q ∗ elt c ∗ elts Z

theorem iter_knot {q c : Elem V} {Z : List (Elem V)} (hc : comp q.val c.val = true) :
    Triple nf (isSList l a s ty (q :: c :: Z)) (mergeIter comp q.node s a s)
      (fun r => ⌜r = some q.node⌝ ∗ knot l a s ty q c Z) := by
  apply list_facts0; intro f
  unfold mergeIter
  have hv := valOf_in (nf := nf) (l := l) (a := a) (s := s) (ty := ty) (X := []) (Y := c :: Z) (e := q)
  have hd := ldV_in (nf := nf) (l := l) (a := a) (s := s) (ty := ty) (X := []) (Y := c :: Z) (e := q)
  have hn := nxt_spec' (nf := nf) (l := l) (a := a) (s := s) (ty := ty) (X := []) (Y := c :: Z) (e := q)
  have hv' := valOf_in (nf := nf) (l := l) (a := a) (s := s) (ty := ty) (X := [q]) (Y := Z) (e := c)
  have hd' := ldV_in (nf := nf) (l := l) (a := a) (s := s) (ty := ty) (X := [q]) (Y := Z) (e := c)
  simp only [List.nil_append, List.cons_append, firstN_cons] at hv hd hn hv' hd'
  call hn; intro r; xsub
  rw [if_pos (f.ns c (by simp))]
  call nxt_first; intro r; xsub
  rw [firstN_cons, if_pos (f.ns q (by simp))]
  call nxt_first; intro r; xsub
  rw [firstN_cons]
  call hv; intro r; xsub
  call hn; intro r; xsub
  call hv'; intro r; xsub
  call hd; intro r; xsub
  call hd'; intro r; xsub
  rw [if_pos hc]
  call nxt_first; intro r; xsub
  rw [firstN_cons]
  call hn; intro r; xsub
  have ht := transfer_ring (nf := nf) (a := a) (m := q) (W := []) (t := c.node) (by simpa using f.na q (by simp)) (f.na c (by simp)).symm (by
    intro e he
    simp at he
    subst he
    have := f.nd
    simp at this
    intro h
    exact this.1.1 h)
  simp only [nodes, List.map_nil, path, emp_sep, lastN_nil] at ht
  simp only [isSList, knot, nodes, List.map_cons, List.cons_append, path, elts]
  call ht; intro _
  apply Triple.ret
  cancel

theorem knot_facts {q c : Elem V} {Z : List (Elem V)} {F : HProp V} {h : Heap V} (hh : (knot l a s ty q c Z ∗ F) h) : q.node ≠ s ∧ c.node ≠ s := by
  have h1 : (blk s 2 ∗ elts (q :: c :: Z) ∗ (blk l 3 ∗ fld l 1 a ∗ fld l 2 s ∗ fld l 3 ty ∗ blk a 2 ∗ fld a 2 0 ∗ fld s 1 0 ∗ fld s 2 0 ∗
      fld a 1 c.node ∗ fld q.node 1 q.node ∗ path c.node (nodes Z ++ [s]) ∗ F)) h := by
    unfold knot hdr at hh
    simp only [elts]
    refine Eq.mp (congrFun ?_ h) hh; ac_rfl
  have := elts_nodes_ne h1
  exact ⟨this q (by simp), this c (by simp)⟩

theorem iter_knotted {q c : Elem V} {Z : List (Elem V)} (hc : comp c.val q.val = false) :
    Triple nf (knot l a s ty q c Z) (mergeIter comp q.node s a s)
      (fun r => ⌜r = some q.node⌝ ∗ knot l a s ty q c Z) := by
  refine Triple.fact (p := q.node ≠ s ∧ c.node ≠ s) (fun _ hh => knot_facts (F := emp) (by rw [sep_emp]; exact hh)) fun ⟨h1, h2⟩ => ?_
  unfold mergeIter knot elt
  steps
  rw [if_pos h1]
  steps
  rw [if_pos h2]
  steps
  rw [if_neg (by simp [hc])]
  steps
  apply Triple.ret
  cancel

theorem spin_knot {q c : Elem V} {Z : List (Elem V)} {F : HProp V} (hc : comp c.val q.val = false) :
    Never nf (knot l a s ty q c Z ∗ F) (mergeLoop comp q.node s a s) := by
  refine mergeLoop.fixpoint_induct comp s a s (fun f => ∀ n R, (n = q.node ∧ R = (knot l a s ty q c Z ∗ F)) → Never nf R (f n)) Never.adm1 ?_ _ _ ⟨rfl, rfl⟩
  rintro f ih _ _ ⟨rfl, rfl⟩
  dsimp only
  rw [mergeStep]
  refine Never.step (iter_knotted hc) ?_
  exact ih _ _ ⟨rfl, rfl⟩

/-- two or more elements `A ++ B` in front of a greater one are moved behind each other for ever -/
theorem spin {A B Z : List (Elem V)} {c : Elem V} {F : HProp V} (h2 : 2 ≤ (A ++ B).length) (hlt : ∀ q ∈ A ++ B, comp q.val c.val = true)
    (heq : ∀ p ∈ A ++ B, ∀ q ∈ A ++ B, comp p.val q.val = false) :
    Never nf (isSList l a s ty (A ++ B ++ c :: Z) ∗ F) (mergeLoop comp (lastN A a) s a s) := by
  refine mergeLoop.fixpoint_induct comp s a s (fun f => ∀ n R, (∃ A B : List (Elem V), n = lastN A a ∧ 2 ≤ (A ++ B).length ∧
      (∀ q ∈ A ++ B, comp q.val c.val = true) ∧ (∀ p ∈ A ++ B, ∀ q ∈ A ++ B, comp p.val q.val = false) ∧ R = (isSList l a s ty (A ++ B ++ c :: Z) ∗ F)) →
        Never nf R (f n)) Never.adm1 ?_ _ _ ⟨A, B, rfl, h2, hlt, heq, rfl⟩
  rintro f ih _ _ ⟨A, B, rfl, h2, hlt, heq, rfl⟩
  dsimp only
  rw [mergeStep]
  rcases B with _ | ⟨b, B⟩
  · rw [List.append_nil] at h2 hlt heq ⊢
    obtain ⟨q, Q, rfl⟩ := List.exists_cons_of_ne_nil (l := A) (by rintro rfl; simp at h2)
    obtain ⟨y, Q, rfl⟩ := List.exists_cons_of_ne_nil (l := Q) (by rintro rfl; simp at h2)
    refine Never.step (iter_lt (hlt q (by simp))) ?_
    refine ih _ _ ⟨y :: Q, [q], rfl, by simp, ?_, ?_, rfl⟩
    · intro z hz; apply hlt; simp at hz ⊢; rcases hz with h | h | h <;> simp [h]
    · intro z hz z' hz'; apply heq
      · simp at hz ⊢; rcases hz with h | h | h <;> simp [h]
      · simp at hz' ⊢; rcases hz' with h | h | h <;> simp [h]
  · obtain ⟨q, R, hq⟩ := List.exists_cons_of_ne_nil (l := A ++ b :: B) (by simp)
    have hb : comp q.val b.val = false := heq q (by rw [hq]; simp) b (by simp)
    have hg := iter_ge (nf := nf) (l := l) (a := a) (s := s) (ty := ty) (comp := comp) (A := A) (b := b) (B := B ++ c :: Z) (q := q) (R := R ++ c :: Z)
      (by rw [← List.cons_append, ← List.append_assoc, hq, List.cons_append]) hb
    rw [List.append_assoc, List.cons_append]
    refine Never.step hg ?_
    refine ih _ _ ⟨A ++ [b], B, by simp, by simpa using h2, ?_, ?_, by simp⟩
    · simpa using hlt
    · simpa using heq

theorem mergeBy_self_never {xs : List (Elem V)} {x : Elem V} {R : List (Elem V)} {F : HProp V} (hc : StrictWeak comp) (hs : Sorted comp (vals xs)) (hx : xs = x :: R)
    (hg : ∃ y ∈ R, comp x.val y.val = true) (hty : isSame ty ty = true) :
    Never nf (isSList l a s ty xs ∗ F) (mergeBy l l (some comp)) := by
  subst hx
  unfold mergeBy
  dsimp only
  refine Never.step spliceGuard_self ?_
  rw [if_neg (by simp [hty])]
  refine Never.step beforeBegin_spec ?_
  refine Never.step end_spec ?_
  refine Never.step beforeBegin_spec ?_
  refine Never.step end_spec ?_
  apply Never.head
  have hs' : Sorted (fun a b : Elem V => comp a.val b.val) (x :: R) := by simpa [Sorted, vals, List.pairwise_map] using hs
  have hxR := (List.pairwise_cons.1 hs').1
  have hsp := List.takeWhile_append_dropWhile (p := fun z : Elem V => !comp x.val z.val) (l := R)
  have hY : ∀ z ∈ R.takeWhile (fun z : Elem V => !comp x.val z.val), comp x.val z.val = false := by
    intro z hz
    simpa using List.all_takeWhile (p := fun z : Elem V => !comp x.val z.val) (l := R) |> List.all_eq_true.1 |> fun h => h z hz
  rcases hd : R.dropWhile (fun z => !comp x.val z.val) with _ | ⟨c, Z⟩
  · rw [hd, List.append_nil] at hsp
    obtain ⟨y, hy, hxy⟩ := hg
    rw [hY y (by rw [hsp]; exact hy)] at hxy
    cases hxy
  · have hxc : comp x.val c.val = true := by
      have := List.head?_dropWhile_not (fun z : Elem V => !comp x.val z.val) R
      rw [hd] at this
      simpa using this
    rw [hd] at hsp
    generalize R.takeWhile (fun z : Elem V => !comp x.val z.val) = Y at hsp hY
    subst hsp
    rcases Y with _ | ⟨y, Y⟩
    · simp only [List.nil_append]
      rw [mergeLoop_eq]
      have := iter_ge (nf := nf) (l := l) (a := a) (s := s) (ty := ty) (comp := comp) (A := []) (b := x) (B := c :: Z) rfl (hc.irrefl _)
      simp only [List.nil_append, lastN_nil] at this
      refine Never.step this ?_
      simp only [orElse]
      rw [mergeLoop_eq]
      refine Never.step (iter_knot hxc) ?_
      exact spin_knot (hc.asymm hxc)
    · have hle : ∀ z ∈ x :: y :: Y, comp x.val z.val = false := by
        intro z hz
        rcases List.mem_cons.1 hz with rfl | hz
        · exact hc.irrefl _
        · exact hY z hz
      have hge : ∀ z ∈ x :: y :: Y, comp z.val x.val = false := by
        intro z hz
        rcases List.mem_cons.1 hz with rfl | hz
        · exact hc.irrefl _
        · exact hxR z (List.mem_append_left _ hz)
      have := spin (nf := nf) (l := l) (a := a) (s := s) (ty := ty) (comp := comp) (A := []) (B := x :: y :: Y) (c := c) (Z := Z) (F := F) (by simp) ?_ ?_
      · simpa using this
      · intro z hz
        by_cases h : comp z.val c.val = true
        · exact h
        · exact absurd hxc (by simp [hc.negtrans (hle z hz) (Bool.eq_false_iff.2 h)])
      · intro p hp q hq
        exact hc.negtrans (hge p hp) (hle q hq)

/-- nodes linked in a ring, reachable from nowhere -/
def ring : List (Elem V) → HProp V
  | [] => emp
  | m :: W => path m.node (nodes W) ∗ fld (lastN W m.node) 1 m.node ∗ elts (m :: W)

theorem walk_end {A B : List (Elem V)} {x : Elem V} {R : List (Elem V)} (hx : A ++ B = x :: R) (hB : ∀ b ∈ B, comp x.val b.val = false) :
    Triple nf (isSList l a s ty (A ++ B)) (mergeLoop comp (lastN A a) s a s) (fun r => ⌜r = lastN (A ++ B) a⌝ ∗ isSList l a s ty (A ++ B)) := by
  induction B generalizing A with
  | nil =>
    rw [mergeLoop_eq, List.append_nil]
    call iter_end; intro r; xsub
    apply Triple.ret
    cancel
  | cons b B ih =>
    rw [mergeLoop_eq]
    call (iter_ge hx (hB b (by simp))); intro r; xsub
    have := ih (A := A ++ [b]) (by simpa using hx) (fun z hz => hB z (by simp [hz]))
    simp only [List.append_assoc, List.cons_append, List.nil_append, lastN_append_cons, lastN_nil] at this ⊢
    exact this

theorem mergeBy_self_lost {x : Elem V} {R : List (Elem V)} (hg : ∀ y ∈ x :: R, comp x.val y.val = false) (hty : isSame ty ty = true) :
    Triple nf (isSList l a s ty (x :: R)) (mergeBy l l (some comp)) (fun _ => isSList l a s ty [] ∗ ring (x :: R)) := by
  apply list_facts0; intro f
  unfold mergeBy
  dsimp only
  call spliceGuard_self; intro r; xsub
  rw [if_neg (by simp [hty])]
  call beforeBegin_spec; intro r; xsub
  call end_spec; intro r; xsub
  call beforeBegin_spec; intro r; xsub
  call end_spec; intro r; xsub
  have hw := walk_end (nf := nf) (l := l) (a := a) (s := s) (ty := ty) (comp := comp) (A := []) (B := x :: R) (x := x) (R := R) rfl hg
  simp only [List.nil_append, lastN_nil] at hw
  call hw; intro r; xsub
  call nxt_first; intro r; xsub
  rw [firstN_cons, if_pos (f.ns x (by simp))]
  have ht := transfer_ring (nf := nf) (a := a) (m := x) (W := R) (t := s) (by
    intro h
    rcases List.eq_nil_or_concat R with rfl | ⟨R, e, rfl⟩
    · exact f.na x (by simp) (by simpa using h)
    · exact f.na e (by simp) (by simpa using h)) f.as f.ns
  rw [lastN_cons]
  rw [show isSList l a s ty (x :: R) = (hdr l a s ty ∗ (fld a 1 x.node ∗ path x.node (nodes R) ∗ fld (lastN R x.node) 1 s) ∗ elts (x :: R)) by
    rw [isSList, show nodes (x :: R) ++ [s] = x.node :: (nodes R ++ [s]) from rfl, path, path_snoc]]
  call ht; intro _
  simp only [isSList, ring, nodes, List.map_nil, List.nil_append, path, elts]
  cancel

end CC.SList
