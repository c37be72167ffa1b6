import Verif.Tree.Whole
/-!
# Histories of operations on ordered containers

Client programs that apply any sequence of public operations of c_tree.c (which are those of `c_set`, `c_multiset`, `c_map`, `c_multimap`), and what each
operation means on the sequence of elements.
-/
namespace CC.Tree
open CC CC.Tac T
open CC.CList (Elem nodes vals firstN lastN)
variable {V β : Type} {nf : Prop} {E : Env V} {a h : Nat} {g : Cfg} {es : List (Elem V)} {F R : HProp V} {ρ : Loc → V}

/-- a `c_ref_t` argument: an object living outside the container, or a reference to the container's own element number `j` -/
inductive Arg where
  | ext (l : Loc)
  | own (j : Nat)

/-- A public operation.  A position `i` is the iterator reached from `c_tree_begin` with `iter_advance` by `i`. -/
inductive Op where
  | insertUnique (x : Arg)
  | insertUniqueHint (i : Nat) (x : Arg)
  | insertEqual (x : Arg)
  | insertEqualHint (i : Nat) (x : Arg)
  | erase (i : Nat)
  | eraseRange (i j : Nat)
  | eraseKey (x : Arg)
  | clear

/-- the iterator at position `i` -/
def iterAt (a : Addr) (i : Nat) : M V Addr := do
  let b ← begin_ a
  iterAdvance b (Int.ofNat i)

/-- the reference denoted by an argument -/
def refOf (a : Addr) : Arg → M V Loc
  | .ext l => pure l
  | .own j => do
    let p ← iterAt a j
    iterDereference p

variable (E) in
/-- the client program for one operation -/
def runOp (a : Addr) : Op → M V Unit
  | .insertUnique x => do
    let v ← refOf a x
    let _ ← insertUniqueValue E a v
    pure ()
  | .insertUniqueHint i x => do
    let v ← refOf a x
    let p ← iterAt a i
    let _ ← insertUnique E a p v
    pure ()
  | .insertEqual x => do
    let v ← refOf a x
    let _ ← insertEqualValue E a v
    pure ()
  | .insertEqualHint i x => do
    let v ← refOf a x
    let p ← iterAt a i
    let _ ← insertEqual E a p v
    pure ()
  | .erase i => do
    let p ← iterAt a i
    let _ ← erase a p
    pure ()
  | .eraseRange i j => do
    let p ← iterAt a i
    let q ← iterAt a j
    eraseRange a p q
  | .eraseKey x => do
    let v ← refOf a x
    let _ ← eraseKey E a v
    pure ()
  | .clear => clear a

variable (E) in
def runOps (a : Addr) : List Op → M V Unit
  | [] => pure ()
  | op :: ops => do
    runOp E a op
    runOps a ops

/-- the value an argument has; `ρ l` is the value at the outside location `l` -/
def ArgIs (ρ : Loc → V) (es : List (Elem V)) : Arg → V → Prop
  | .ext l, v => v = ρ l
  | .own j, v => ∃ e, es[j]? = some e ∧ v = e.val

variable (E g) in
/-- What an operation does to the sequence of elements (which carry their addresses). -/
def Step (ρ : Loc → V) (es : List (Elem V)) (es' : List (Elem V)) : Op → Prop
  | .insertUnique x => ∃ v r, ArgIs ρ es x v ∧ UniqueIns E g v es r es'
  | .insertUniqueHint _ x => ∃ v r, ArgIs ρ es x v ∧ UniqueIns E g v es r es'
  | .insertEqual x => ∃ v e, ArgIs ρ es x v ∧ e.val = v ∧ es' = insAfter E g v es e
  | .insertEqualHint i x => ∃ v e, ArgIs ρ es x v ∧ e.val = v ∧ es' = hintIns E g v (es.take i) (es.drop i) e
  | .erase i => es' = es.eraseIdx i
  | .eraseRange i j => es' = es.take i ++ es.drop j
  | .eraseKey x => ∃ v, ArgIs ρ es x v ∧ es' = es.filter fun e => !keq E g v e
  | .clear => es' = []

def ValidArg (R : HProp V) (ρ : Loc → V) (n : Nat) : Arg → Prop
  | .ext l => l.1 ≠ 0 ∧ Reads R l (ρ l)
  | .own j => j < n

/-- The positions of the operation are valid for a container with `n` elements and its value arguments are live objects. -/
def Valid (R : HProp V) (ρ : Loc → V) (n : Nat) : Op → Prop
  | .insertUnique x => ValidArg R ρ n x
  | .insertUniqueHint i x => i ≤ n ∧ ValidArg R ρ n x
  | .insertEqual x => ValidArg R ρ n x
  | .insertEqualHint i x => i ≤ n ∧ ValidArg R ρ n x
  | .erase i => i < n
  | .eraseRange i j => i ≤ j ∧ j ≤ n
  | .eraseKey x => ValidArg R ρ n x
  | .clear => True

theorem advanceFwd_cps {t : T (Elem V)} {X W Y : List (Elem V)} {Q : β → HProp V} {K : Nat → M V β} (ht : t.toList = X ++ W ++ Y)
    (hk : Triple nf (isShape a h g t ∗ F) (K (firstN Y h)) Q) :
    Triple nf (isShape a h g t ∗ F) (advanceFwd (firstN (W ++ Y) h) W.length >>= K) Q := by
  induction W generalizing X with
  | nil => simpa [advanceFwd] using hk
  | cons e W ih =>
    rw [List.length_cons, advanceFwd, bind_assoc, List.cons_append, CList.firstN_cons]
    refine increment_cps (X := X) (Y := W ++ Y) (by rw [ht]; simp) ?_
    exact ih (X := X ++ [e]) (by rw [ht]; simp)

theorem iterAt_cps {t : T (Elem V)} {i : Nat} {Q : β → HProp V} {K : Nat → M V β} (hvt : g.vt ≠ 0) (hi : i ≤ t.toList.length)
    (hk : Triple nf (isShape a h g t ∗ F) (K (firstN (t.toList.drop i) h)) Q) :
    Triple nf (isShape a h g t ∗ F) (iterAt a i >>= K) Q := by
  unfold iterAt
  rw [bind_assoc]
  refine begin_cps hvt ?_
  have := advanceFwd_cps (nf := nf) (a := a) (h := h) (g := g) (F := F) (t := t) (X := []) (W := t.toList.take i) (Y := t.toList.drop i) (Q := Q) (K := K) (by simp) hk
  rw [List.take_append_drop, List.length_take, Nat.min_eq_left hi] at this
  exact this

theorem reads_own {X Y : List (Elem V)} {e : Elem V} (he : es = X ++ e :: Y) : Reads (isTree a h g es ∗ F) (e.box, 1) e.val := by
  intro m hm
  unfold isTree at hm
  rw [hex_sep] at hm
  obtain ⟨t, hm⟩ := hm
  rw [sep_assoc, hpure_sep_apply] at hm
  obtain ⟨⟨h1, _, _⟩, hm⟩ := hm
  exact rd_val (h1.trans he) m hm

/-- the shape is reached from the tree, and back -/
theorem shape_of_tree {t : T (Elem V)} {m : M V β} {Q : β → HProp V} (h1 : t.toList = es) (h2 : t.Good) (h3 : g.vt ≠ 0)
    (hk : Triple nf (isTree a h g es ∗ F) m Q) : Triple nf (isShape a h g t ∗ F) m Q :=
  Triple.pre (sep_mono (shape_tree h1 h2 h3) (ent_refl F)) hk

theorem iterAt_spec {i : Nat} {Q : β → HProp V} {K : Nat → M V β} (hi : i ≤ es.length)
    (hk : Triple nf (isTree a h g es ∗ F) (K (firstN (es.drop i) h)) Q) :
    Triple nf (isTree a h g es ∗ F) (iterAt a i >>= K) Q := by
  refine with_tree fun t h1 h2 h3 => ?_
  refine iterAt_cps h3 (by rw [h1]; exact hi) ?_
  rw [h1]
  exact shape_of_tree h1 h2 h3 hk

theorem refOf_spec {x : Arg} {Q : β → HProp V} {K : Loc → M V β} (hx : ValidArg R ρ es.length x)
    (hk : ∀ l v, l.1 ≠ 0 → ArgIs ρ es x v → Reads (isTree a h g es ∗ R) l v → Triple nf (isTree a h g es ∗ R) (K l) Q) :
    Triple nf (isTree a h g es ∗ R) (refOf a x >>= K) Q := by
  cases x with
  | ext l =>
    rw [refOf, pure_bind]
    exact hk l (ρ l) hx.1 rfl hx.2.right
  | own j =>
    have hj : j < es.length := hx
    have ht : es = es.take j ++ es[j] :: es.drop (j+1) := by simp
    have hd : es.drop j = es[j] :: es.drop (j+1) := by simp
    rw [refOf, bind_assoc]
    refine iterAt_spec (Nat.le_of_lt hj) ?_
    refine with_tree fun t h1 h2 h3 => ?_
    refine with_facts fun hf => ?_
    rw [hd, CList.firstN_cons]
    unfold iterDereference
    rw [bind_assoc]
    refine ldN_reads (rd_box (h1.trans ht)) ?_
    rw [pure_bind]
    rw [h1] at hf
    refine shape_of_tree h1 h2 h3 ?_
    exact hk _ _ (hf.ne _ (by simp)).2.2.1 ⟨_, by simp, rfl⟩ (reads_own ht)

theorem runOp_spec {op : Op} (hw : StrictWeak (klt E g)) (hs : KSorted E g es) (hv : Valid R ρ es.length op) :
    Triple True (isTree a h g es ∗ R) (runOp E a op) (fun _ => ∃ₛ es', ⌜Step E g ρ es es' op⌝ ∗ isTree a h g es' ∗ R) := by
  cases op with
  | insertUnique x =>
    unfold runOp
    refine refOf_spec hv fun l v hl hx hr => ?_
    refine Triple.bind (insertUniqueValue_spec hw hs hl hr) fun r => ?_
    refine Triple.ex_left fun es' => ?_
    apply Triple.pure_left
    intro hu
    apply Triple.ret
    apply ent_ex_right es'
    exact ent_pure_right ⟨v, r, hx, hu⟩ (ent_refl _)
  | insertUniqueHint i x =>
    unfold runOp
    refine refOf_spec hv.2 fun l v hl hx hr => ?_
    refine iterAt_spec hv.1 ?_
    have he : es.take i ++ es.drop i = es := List.take_append_drop i es
    have := insertUnique_spec (E := E) (a := a) (h := h) (g := g) (F := R) (X := es.take i) (Y := es.drop i) (v := v) hw (he.symm ▸ hs) hl (he.symm ▸ hr)
    rw [he] at this
    refine Triple.bind this fun r => ?_
    refine Triple.ex_left fun es' => ?_
    apply Triple.pure_left
    intro hu
    apply Triple.ret
    apply ent_ex_right es'
    exact ent_pure_right ⟨v, r, hx, hu⟩ (ent_refl _)
  | insertEqual x =>
    unfold runOp
    refine refOf_spec hv fun l v hl hx hr => ?_
    refine Triple.bind (insertEqualValue_spec hw hs hl hr) fun r => ?_
    refine Triple.ex_left fun e => ?_
    apply Triple.pure_left
    intro hu
    apply Triple.ret
    apply ent_ex_right (insAfter E g v es e)
    exact ent_pure_right ⟨v, e, hx, hu.2, rfl⟩ (ent_refl _)
  | insertEqualHint i x =>
    unfold runOp
    refine refOf_spec hv.2 fun l v hl hx hr => ?_
    refine iterAt_spec hv.1 ?_
    have he : es.take i ++ es.drop i = es := List.take_append_drop i es
    have := insertEqual_spec (E := E) (a := a) (h := h) (g := g) (F := R) (X := es.take i) (Y := es.drop i) (v := v) hw (he.symm ▸ hs) hl (he.symm ▸ hr)
    rw [he] at this
    refine Triple.bind this fun r => ?_
    refine Triple.ex_left fun e => ?_
    apply Triple.pure_left
    intro hu
    apply Triple.ret
    apply ent_ex_right (hintIns E g v (es.take i) (es.drop i) e)
    exact ent_pure_right ⟨v, e, hx, hu.2, rfl⟩ (ent_refl _)
  | erase i =>
    unfold runOp
    have hi : i < es.length := hv
    refine iterAt_spec (Nat.le_of_lt hi) ?_
    obtain ⟨X, e, Y, rfl, rfl⟩ : ∃ X e Y, es = X ++ e :: Y ∧ X.length = i :=
      ⟨es.take i, es[i], es.drop (i+1), by simp, by simp; omega⟩
    rw [List.drop_left, CList.firstN_cons]
    refine Triple.bind erase_spec fun r => ?_
    apply Triple.pure_left
    intro _
    apply Triple.ret
    apply ent_ex_right (X ++ Y)
    refine ent_pure_right ?_ (ent_refl _)
    show X ++ Y = (X ++ e :: Y).eraseIdx X.length
    simp [List.eraseIdx_append]
  | eraseRange i j =>
    obtain ⟨h1, h2⟩ : i ≤ j ∧ j ≤ es.length := hv
    unfold runOp
    refine iterAt_spec (Nat.le_trans h1 h2) ?_
    refine iterAt_spec h2 ?_
    have cut : (es.drop i).take (j - i) ++ es.drop j = es.drop i := by
      rw [show es.drop j = (es.drop i).drop (j - i) by rw [List.drop_drop]; congr 1; omega, List.take_append_drop]
    have he := eraseRange_spec (nf := True) (a := a) (h := h) (g := g) (F := R) (X := es.take i) (W := (es.drop i).take (j - i)) (Y := es.drop j)
    rw [List.append_assoc, cut, List.take_append_drop] at he
    refine Triple.post he fun _ => ?_
    apply ent_ex_right (es.take i ++ es.drop j)
    exact ent_pure_right rfl (ent_refl _)
  | eraseKey x =>
    unfold runOp
    refine refOf_spec hv fun l v hl hx hr => ?_
    refine Triple.bind (eraseKey_spec hw hs hl hr) fun r => ?_
    apply Triple.pure_left
    intro _
    apply Triple.ret
    apply ent_ex_right (es.filter fun e => !keq E g v e)
    exact ent_pure_right ⟨v, hx, rfl⟩ (ent_refl _)
  | clear =>
    unfold runOp
    refine Triple.post clear_spec fun _ => ?_
    apply ent_ex_right []
    exact ent_pure_right rfl (ent_refl _)

theorem Step.sorted {op : Op} {es' : List (Elem V)} (hw : StrictWeak (klt E g)) (hs : KSorted E g es) (hst : Step E g ρ es es' op) (hv : Valid R ρ es.length op) : KSorted E g es' := by
  cases op with
  | insertUnique x => obtain ⟨v, r, _, hu⟩ := hst; exact hu.sorted hw hs
  | insertUniqueHint i x => obtain ⟨v, r, _, hu⟩ := hst; exact hu.sorted hw hs
  | insertEqual x => obtain ⟨v, e, _, he, rfl⟩ := hst; exact insAfter_sorted hw hs he
  | insertEqualHint i x =>
    obtain ⟨v, e, _, he, rfl⟩ := hst
    exact hintIns_sorted hw (by rwa [List.take_append_drop]) he
  | erase i => cases hst; exact hs.sub (List.eraseIdx_sublist _ _)
  | eraseRange i j =>
    cases hst
    refine hs.sub ?_
    have : es = es.take i ++ es.drop i := by simp
    conv => rhs; rw [this]
    refine List.Sublist.append (List.Sublist.refl _) ?_
    have h1 : i ≤ j := hv.1
    rw [show j = i + (j - i) by omega, ← List.drop_drop]
    exact List.drop_sublist _ _
  | eraseKey x => obtain ⟨v, _, rfl⟩ := hst; exact hs.filter
  | clear => cases hst; exact KSorted.iff.2 List.Pairwise.nil

variable (E g) in
/-- all ways a history may change the sequence of elements -/
inductive Run (ρ : Loc → V) : List Op → List (Elem V) → List (Elem V) → Prop
  | nil (zs : List (Elem V)) : Run ρ [] zs zs
  | cons {op : Op} {ops : List Op} {xs ys zs : List (Elem V)} : Step E g ρ xs ys op → Run ρ ops ys zs → Run ρ (op :: ops) xs zs

variable (E g) in
/-- A history is valid if each operation is valid in every state the previous ones can lead to. -/
def ValidOps (R : HProp V) (ρ : Loc → V) : List Op → List (Elem V) → Prop
  | [], _ => True
  | op :: ops, xs => Valid R ρ xs.length op ∧ ∀ ys, Step E g ρ xs ys op → ValidOps R ρ ops ys

theorem runOps_spec {ops : List Op} (hw : StrictWeak (klt E g)) (hs : KSorted E g es) (hv : ValidOps E g R ρ ops es) :
    Triple True (isTree a h g es ∗ R) (runOps E a ops) (fun _ => ∃ₛ es', ⌜Run E g ρ ops es es' ∧ KSorted E g es'⌝ ∗ isTree a h g es' ∗ R) := by
  induction ops generalizing es with
  | nil =>
    rw [runOps]
    apply Triple.ret
    apply ent_ex_right es
    exact ent_pure_right ⟨Run.nil _, hs⟩ (ent_refl _)
  | cons op ops ih =>
    rw [runOps]
    refine Triple.bind (runOp_spec hw hs hv.1) fun _ => ?_
    refine Triple.ex_left fun ys => ?_
    apply Triple.pure_left
    intro hst
    refine Triple.post (ih (hst.sorted hw hs hv.1) (hv.2 ys hst)) fun _ => ?_
    refine ent_ex_left fun zs => ?_
    refine ent_pure_left fun h2 => ?_
    apply ent_ex_right zs
    exact ent_pure_right ⟨Run.cons hst h2.1, h2.2⟩ (ent_refl _)

end CC.Tree
