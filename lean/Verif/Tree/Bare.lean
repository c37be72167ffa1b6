import Verif.Tree.Nav
/-!
# The memory of a tree without the values of its elements

GENERATED by tools/gen_bare.py from Rep, Peek, Erase and Nav: `elm` does not contain the cell of the value, the rest is the same.
-/
namespace CC.Tree.Bare
open CC CC.Tac CC.Tree T
open CC.CList (Elem nodes vals firstN lastN)
variable {V β : Type} {nf : Prop}

/-- what an element owns besides its color, its links and its value -/
def elm (e : Elem V) : HProp V := blk e.node 5 ∗ fld e.node 5 e.box ∗ blk e.box 1

/-- a node with its color and links -/
def nd (e : Elem V) (c p l r : Nat) : HProp V := fld e.node 1 c ∗ fld e.node 2 p ∗ fld e.node 3 l ∗ fld e.node 4 r ∗ elm e

/-- a linked subtree whose root has parent `p` -/
def tr (p : Addr) : T (Elem V) → HProp V
  | .leaf => emp
  | .node c l e r => nd e c.code p (rootA l) (rootA r) ∗ tr e.node l ∗ tr e.node r

theorem tr_leaf {p : Addr} : tr (V := V) p .leaf = emp := rfl

theorem tr_node {p : Addr} {c : Color} {l r : T (Elem V)} {e : Elem V} :
    tr p (.node c l e r) = (nd e c.code p (rootA l) (rootA r) ∗ tr e.node l ∗ tr e.node r) := rfl

/-- the linked nodes around a subtree with root `x`, in a tree with header `h` -/
def cx (h : Addr) : Addr → Ctx (Elem V) → HProp V
  | x, [] => fld h 2 x
  | x, .L c e r :: k => nd e c.code (upA h k) x (rootA r) ∗ tr e.node r ∗ cx h e.node k
  | x, .R c l e :: k => nd e c.code (upA h k) (rootA l) x ∗ tr e.node l ∗ cx h e.node k

theorem cx_nil {h x : Addr} : cx (V := V) h x [] = fld h 2 x := rfl

theorem cx_L {h x : Addr} {c : Color} {e : Elem V} {r : T (Elem V)} {k : Ctx (Elem V)} :
    cx h x (.L c e r :: k) = (nd e c.code (upA h k) x (rootA r) ∗ tr e.node r ∗ cx h e.node k) := rfl

theorem cx_R {h x : Addr} {c : Color} {e : Elem V} {l : T (Elem V)} {k : Ctx (Elem V)} :
    cx h x (.R c l e :: k) = (nd e c.code (upA h k) (rootA l) x ∗ tr e.node l ∗ cx h e.node k) := rfl

/-- move the focus one step up -/
theorem cx_up {h : Addr} {t : T (Elem V)} {f : Frame (Elem V)} {k : Ctx (Elem V)} :
    (cx h (rootA t) (f :: k) ∗ tr f.elem.node t) = (cx h f.elem.node k ∗ tr (upA h k) (f.plug t)) := by
  cases f with
  | L c e r => simp only [cx_L, Frame.elem_L, Frame.plug_L, tr_node]; ac_rfl
  | R c l e => simp only [cx_R, Frame.elem_R, Frame.plug_R, tr_node]; ac_rfl

/-- the whole tree, seen from one of its subtrees -/
theorem cx_plug {h : Addr} {t : T (Elem V)} {k : Ctx (Elem V)} :
    (cx h (rootA t) k ∗ tr (upA h k) t) = (fld h 2 (rootA (plug t k)) ∗ tr h (plug t k)) := by
  induction k generalizing t with
  | nil => rfl
  | cons f k ih =>
    rw [upA_cons, cx_up, plug_cons]
    have := ih (t := f.plug t)
    rw [rootA_plugF] at this
    exact this

/-- The fragment is exactly a tree of shape `t`. -/
def isShape (a h : Addr) (g : Cfg) (t : T (Elem V)) : HProp V :=
  hdr a h g t.toList.length (firstN t.toList h) (lastN t.toList h) ∗ fld h 2 (rootA t) ∗ tr h t

theorem peek {h : Nat} {c : Color} {l r : T (Elem V)} {e : Elem V} {k : Ctx (Elem V)} {t : T (Elem V)} (ht : t = plug (node c l e r) k) :
    ∃ R, (fld h 2 (rootA t) ∗ tr h t) = (nd e c.code (upA h k) (rootA l) (rootA r) ∗ R) := by
  refine ⟨cx h e.node k ∗ tr e.node l ∗ tr e.node r, ?_⟩
  have := cx_plug (h := h) (t := node c l e r) (k := k)
  rw [rootA_node, tr_node] at this
  rw [ht, ← this]
  ac_rfl

section
variable {a h : Nat} {g : Cfg} {t : T (Elem V)} {F : HProp V}

theorem shape_peek {c : Color} {l r : T (Elem V)} {e : Elem V} {k : Ctx (Elem V)} (ht : t = plug (node c l e r) k) :
    ∃ R, isShape a h g t = (nd e c.code (upA h k) (rootA l) (rootA r) ∗ R) := by
  obtain ⟨R, hR⟩ := peek (h := h) ht
  exact ⟨hdr a h g t.toList.length (firstN t.toList h) (lastN t.toList h) ∗ R, by unfold isShape; rw [hR]; ac_rfl⟩

theorem rd_color {c : Color} {l r : T (Elem V)} {e : Elem V} {k : Ctx (Elem V)} (ht : t = plug (node c l e r) k) : ReadsN (isShape a h g t ∗ F) (e.node, 1) c.code := by
  obtain ⟨R, hR⟩ := shape_peek (a := a) (h := h) (g := g) ht
  rw [hR, nd]
  exact .of_ent (by cancel)

theorem rd_parent {c : Color} {l r : T (Elem V)} {e : Elem V} {k : Ctx (Elem V)} (ht : t = plug (node c l e r) k) : ReadsN (isShape a h g t ∗ F) (e.node, 2) (upA h k) := by
  obtain ⟨R, hR⟩ := shape_peek (a := a) (h := h) (g := g) ht
  rw [hR, nd]
  exact .of_ent (by cancel)

theorem rd_left {c : Color} {l r : T (Elem V)} {e : Elem V} {k : Ctx (Elem V)} (ht : t = plug (node c l e r) k) : ReadsN (isShape a h g t ∗ F) (e.node, 3) (rootA l) := by
  obtain ⟨R, hR⟩ := shape_peek (a := a) (h := h) (g := g) ht
  rw [hR, nd]
  exact .of_ent (by cancel)

theorem rd_right {c : Color} {l r : T (Elem V)} {e : Elem V} {k : Ctx (Elem V)} (ht : t = plug (node c l e r) k) : ReadsN (isShape a h g t ∗ F) (e.node, 4) (rootA r) := by
  obtain ⟨R, hR⟩ := shape_peek (a := a) (h := h) (g := g) ht
  rw [hR, nd]
  exact .of_ent (by cancel)

theorem rd_vtype : ReadsN (isShape a h g t ∗ F) (a, 2) g.vt := .of_ent (by unfold isShape hdr consts; cancel)

theorem rd_header : ReadsN (isShape a h g t ∗ F) (a, 6) h := .of_ent (by unfold isShape hdr consts; cancel)

theorem rd_hcolor : ReadsN (isShape a h g t ∗ F) (h, 1) 0 := .of_ent (by unfold isShape hdr consts; cancel)

theorem rd_hroot : ReadsN (isShape a h g t ∗ F) (h, 2) (rootA t) := .of_ent (by unfold isShape hdr consts; cancel)

theorem rd_hleft : ReadsN (isShape a h g t ∗ F) (h, 3) (firstN t.toList h) := .of_ent (by unfold isShape hdr consts; cancel)

theorem rd_hright : ReadsN (isShape a h g t ∗ F) (h, 4) (lastN t.toList h) := .of_ent (by unfold isShape hdr consts; cancel)

end

/-- what the elements own -/
def elms : List (Elem V) → HProp V
  | [] => emp
  | e :: es => elm e ∗ elms es

theorem elms_nil : elms (V := V) [] = emp := rfl

theorem elms_cons {e : Elem V} {es : List (Elem V)} : elms (e :: es) = (elm e ∗ elms es) := rfl

theorem elms_append {xs ys : List (Elem V)} : elms (xs ++ ys) = (elms xs ∗ elms ys) := by
  induction xs with
  | nil => simp [elms_nil]
  | cons e xs ih => rw [List.cons_append, elms_cons, elms_cons, ih, sep_assoc]

theorem tr_elms {p : Nat} {t : T (Elem V)} : ∃ R, tr p t = (elms t.toList ∗ R) := by
  induction t generalizing p with
  | leaf => exact ⟨emp, by simp [tr_leaf, elms_nil]⟩
  | node c l e r ihl ihr =>
    obtain ⟨R1, h1⟩ := ihl (p := e.node)
    obtain ⟨R2, h2⟩ := ihr (p := e.node)
    refine ⟨fld e.node 1 c.code ∗ fld e.node 2 p ∗ fld e.node 3 (rootA l) ∗ fld e.node 4 (rootA r) ∗ R1 ∗ R2, ?_⟩
    rw [tr_node, h1, h2, nd, toList_node, elms_append, elms_cons]
    ac_rfl

theorem elms_ne {y n : Nat} {es : List (Elem V)} {R : HProp V} {m : Heap V} (hh : (elms es ∗ blk y n ∗ R) m) : ∀ e ∈ es, e.node ≠ y ∧ e.box ≠ y ∧ e.node ≠ 0 ∧ e.box ≠ 0 := by
  induction es generalizing R with
  | nil => simp
  | cons e es ih =>
    intro e' he'
    rw [elms_cons, elm] at hh
    rcases List.mem_cons.1 he' with rfl | he'
    · refine ⟨fun h => ?_, fun h => ?_, ?_, ?_⟩
      · exact loc_ne_of hh (l₁ := (e'.node, 0)) (l₂ := (y, 0)) (R := _) (by cancel) (by rw [h])
      · exact loc_ne_of hh (l₁ := (e'.box, 0)) (l₂ := (y, 0)) (R := _) (by cancel) (by rw [h])
      · simp only [sep_assoc] at hh
        exact pts_ne_zero hh
      · refine pts_ne_zero (l := (e'.box, 0)) (v := .sz 1) (R := (blk e'.node 5 ∗ fld e'.node 5 e'.box) ∗ elms es ∗ blk y n ∗ R) ((show _ ⊢ₛ _ by cancel) _ hh)
    · exact ih (R := elm e ∗ R) ((show _ ⊢ₛ _ by unfold elm; cancel) _ hh) e' he'

theorem elms_nodup {es : List (Elem V)} {R : HProp V} {m : Heap V} (hh : (elms es ∗ R) m) : (nodes es).Nodup := by
  induction es generalizing R with
  | nil => simp [nodes]
  | cons e es ih =>
    rw [elms_cons] at hh
    simp only [nodes, List.map_cons, List.nodup_cons, List.mem_map, not_exists, not_and]
    refine ⟨fun e' he' hee => ?_, ih (R := elm e ∗ R) ((show _ ⊢ₛ _ by cancel) _ hh)⟩
    exact (elms_ne (y := e.node) (n := 5) (R := (fld e.node 5 e.box ∗ blk e.box 1) ∗ R) ((show _ ⊢ₛ _ by unfold elm; cancel) _ hh) e' he').1 hee

theorem shape_facts {a h : Nat} {g : Cfg} {t : T (Elem V)} {F : HProp V} {m : Heap V} (hh : (isShape a h g t ∗ F) m) : Facts a h t.toList := by
  obtain ⟨R, hR⟩ := tr_elms (p := h) (t := t)
  rw [isShape, hR, hdr, consts] at hh
  refine ⟨elms_nodup (R := _) ((show _ ⊢ₛ _ by cancel) _ hh), ?_, ?_, fun e he => ?_⟩
  · exact pts_ne_zero (l := (a, 0)) (v := .sz 7) (R := _) ((show _ ⊢ₛ _ by cancel) _ hh)
  · exact pts_ne_zero (l := (h, 0)) (v := .sz 5) (R := _) ((show _ ⊢ₛ _ by cancel) _ hh)
  · have h1 := elms_ne (y := h) (n := 5) (es := t.toList) (R := _) ((show _ ⊢ₛ _ by cancel) _ hh) e he
    have h2 := elms_ne (y := a) (n := 7) (es := t.toList) (R := _) ((show _ ⊢ₛ _ by cancel) _ hh) e he
    exact ⟨h1.1, h1.2.2.1, h1.2.2.2, h2.1⟩

theorem with_facts {a h : Nat} {g : Cfg} {t : T (Elem V)} {F : HProp V} {m : M V β} {Q : β → HProp V}
    (hk : Facts a h t.toList → Triple nf (isShape a h g t ∗ F) m Q) : Triple nf (isShape a h g t ∗ F) m Q :=
  Triple.fact (fun _ hm => shape_facts hm) hk

/-- the value and the storage of an element -/
theorem shape_elm {a h : Nat} {g : Cfg} {t : T (Elem V)} {X Y : List (Elem V)} {e : Elem V} (ht : t.toList = X ++ e :: Y) : ∃ R, isShape a h g t = (elm e ∗ R) := by
  obtain ⟨R, hR⟩ := tr_elms (p := h) (t := t)
  refine ⟨hdr a h g t.toList.length (firstN t.toList h) (lastN t.toList h) ∗ fld h 2 (rootA t) ∗ elms X ∗ elms Y ∗ R, ?_⟩
  rw [isShape, hR, ht, elms_append, elms_cons]
  ac_rfl

theorem rd_box {a h : Nat} {g : Cfg} {t : T (Elem V)} {F : HProp V} {X Y : List (Elem V)} {e : Elem V} (ht : t.toList = X ++ e :: Y) :
    ReadsN (isShape a h g t ∗ F) (e.node, 5) e.box := by
  obtain ⟨R, hR⟩ := shape_elm (a := a) (h := h) (g := g) ht
  rw [hR, elm]
  exact .of_ent (by cancel)

theorem minLoopF_spec {p N : Nat} {c : Color} {l r : T (Elem V)} {e : Elem V} (hN : (node c l e r).height ≤ N) :
    Triple nf (tr p (node c l e r)) (minLoopF N e.node) (fun x => ⌜x = firstN (l.toList ++ e :: r.toList) 0⌝ ∗ tr p (node c l e r)) := by
  induction l generalizing p c e r N with
  | leaf =>
    simp only [T.height] at hN
    obtain ⟨N, rfl⟩ : ∃ N', N = N' + 1 := ⟨N - 1, by omega⟩
    rw [minLoopF, tr_node, nd]
    step
    simp only [rootA_leaf, ne_eq, not_true_eq_false, ↓reduceIte]
    apply Triple.ret
    cancel
  | node c' l' e' r' ih _ =>
    simp only [T.height] at hN
    obtain ⟨N, rfl⟩ : ∃ N', N = N' + 1 := ⟨N - 1, by omega⟩
    rw [minLoopF, tr_node, nd]
    step
    simp only [tr_node, nd]
    focus_atom fld e'.node 1 c'.code
    apply Triple.ne_zero; intro hx
    have hx' : e'.node ≠ 0 := hx
    simp only [rootA_node, ne_eq, hx', not_false_eq_true, ↓reduceIte]
    refine Triple.pre (P' := tr e.node (node c' l' e' r') ∗ (fld e.node 1 c.code ∗ fld e.node 2 p ∗ fld e.node 3 e'.node ∗ fld e.node 4 (rootA r) ∗ elm e) ∗ tr e.node r) (by simp only [tr_node, nd]; cancel) ?_
    rw [← bind_pure (minLoopF _ _)]
    call (ih (p := e.node) (c := c') (e := e') (r := r') (N := N) (by simp only [T.height]; omega))
    intro x
    xsub
    apply Triple.ret
    rw [toList_node, firstN_any (X := l'.toList ++ e' :: r'.toList) (h' := 0) (by simp)]
    simp only [tr_node, nd]
    cancel

theorem minimumF_spec {p N : Nat} {t : T (Elem V)} (hN : t.height ≤ N) : Triple nf (tr p t) (minimumF N (rootA t)) (fun x => ⌜x = firstN t.toList 0⌝ ∗ tr p t) := by
  unfold minimumF
  cases t with
  | leaf =>
    simp only [rootA_leaf, ↓reduceIte]
    apply Triple.ret
    cancel
  | node c l e r =>
    refine Triple.fact (p := e.node ≠ 0) (fun m hm => ?_) fun hx => ?_
    · rw [tr_node, nd] at hm
      exact pts_ne_zero (l := (e.node, 1)) (v := .num c.code) (R := _) ((show _ ⊢ₛ _ by cancel) _ hm)
    simp only [rootA_node, hx, ↓reduceIte]
    exact minLoopF_spec hN

theorem maxLoopF_spec {p N : Nat} {c : Color} {l r : T (Elem V)} {e : Elem V} (hN : (node c l e r).height ≤ N) :
    Triple nf (tr p (node c l e r)) (maxLoopF N e.node) (fun x => ⌜x = lastN (l.toList ++ e :: r.toList) 0⌝ ∗ tr p (node c l e r)) := by
  induction r generalizing p c e l N with
  | leaf =>
    simp only [T.height] at hN
    obtain ⟨N, rfl⟩ : ∃ N', N = N' + 1 := ⟨N - 1, by omega⟩
    rw [maxLoopF, tr_node, nd]
    step
    simp only [rootA_leaf, ne_eq, not_true_eq_false, ↓reduceIte]
    apply Triple.ret
    simp only [rootA_leaf, toList_leaf, lastN_snoc]
    cancel
  | node c' l' e' r' _ ih =>
    simp only [T.height] at hN
    obtain ⟨N, rfl⟩ : ∃ N', N = N' + 1 := ⟨N - 1, by omega⟩
    rw [maxLoopF, tr_node, nd]
    step
    simp only [tr_node, nd]
    focus_atom fld e'.node 1 c'.code
    apply Triple.ne_zero; intro hx
    have hx' : e'.node ≠ 0 := hx
    simp only [rootA_node, ne_eq, hx', not_false_eq_true, ↓reduceIte]
    refine Triple.pre (P' := tr e.node (node c' l' e' r') ∗ (fld e.node 1 c.code ∗ fld e.node 2 p ∗ fld e.node 3 (rootA l) ∗ fld e.node 4 e'.node ∗ elm e) ∗ tr e.node l) (by simp only [tr_node, nd]; cancel) ?_
    rw [← bind_pure (maxLoopF _ _)]
    call (ih (p := e.node) (c := c') (e := e') (l := l') (N := N) (by simp only [T.height]; omega))
    intro x
    xsub
    apply Triple.ret
    have hl : lastN (l.toList ++ e :: (l'.toList ++ e' :: r'.toList)) 0 = lastN (l'.toList ++ e' :: r'.toList) 0 := by
      rw [List.append_cons l.toList, lastN_any (Y := l'.toList ++ e' :: r'.toList) (h' := 0) (by simp)]
    rw [toList_node, hl]
    simp only [tr_node, nd]
    cancel

theorem maximumF_spec {p N : Nat} {t : T (Elem V)} (hN : t.height ≤ N) : Triple nf (tr p t) (maximumF N (rootA t)) (fun x => ⌜x = lastN t.toList 0⌝ ∗ tr p t) := by
  unfold maximumF
  cases t with
  | leaf =>
    simp only [rootA_leaf, ↓reduceIte]
    apply Triple.ret
    cancel
  | node c l e r =>
    refine Triple.fact (p := e.node ≠ 0) (fun m hm => ?_) fun hx => ?_
    · rw [tr_node, nd] at hm
      exact pts_ne_zero (l := (e.node, 1)) (v := .num c.code) (R := _) ((show _ ⊢ₛ _ by cancel) _ hm)
    simp only [rootA_node, hx, ↓reduceIte]
    exact maxLoopF_spec hN

section
variable {a h N : Nat} {g : Cfg} {t : T (Elem V)} {F : HProp V} {X Y : List (Elem V)} {e : Elem V} {Q : β → HProp V}

theorem shape_sub {s : T (Elem V)} {k : Ctx (Elem V)} (ht : t = plug s k) : ∃ R, (isShape a h g t ∗ F) = (tr (upA h k) s ∗ R) := by
  refine ⟨hdr a h g t.toList.length (firstN t.toList h) (lastN t.toList h) ∗ cx h (rootA s) k ∗ F, ?_⟩
  have := cx_plug (h := h) (t := s) (k := k)
  rw [← ht] at this
  rw [isShape, ← this]
  ac_rfl

theorem minimumF_cps {s : T (Elem V)} {k : Ctx (Elem V)} {K : Nat → M V β} (hN : s.height ≤ N) (ht : t = plug s k) (hk : Triple nf (isShape a h g t ∗ F) (K (firstN s.toList 0)) Q) :
    Triple nf (isShape a h g t ∗ F) (minimumF N (rootA s) >>= K) Q := by
  obtain ⟨R, hR⟩ := shape_sub (a := a) (h := h) (g := g) (F := F) ht
  exact cps_frame hR (minimumF_spec hN) hk

theorem maximumF_cps {s : T (Elem V)} {k : Ctx (Elem V)} {K : Nat → M V β} (hN : s.height ≤ N) (ht : t = plug s k) (hk : Triple nf (isShape a h g t ∗ F) (K (lastN s.toList 0)) Q) :
    Triple nf (isShape a h g t ∗ F) (maximumF N (rootA s) >>= K) Q := by
  obtain ⟨R, hR⟩ := shape_sub (a := a) (h := h) (g := g) (F := F) ht
  exact cps_frame hR (maximumF_spec hN) hk

theorem incUp_cps {c : Color} {l r : T (Elem V)} {k : Ctx (Elem V)} {K : Nat → M V β} (hN : k.length + 2 ≤ N) (ht : t = plug (node c l e r) k)
    (hk : Triple nf (isShape a h g t ∗ F) (K (firstN (after k) h)) Q) :
    Triple nf (isShape a h g t ∗ F) (incUp N e.node (upA h k) >>= K) Q := by
  refine with_facts fun hf => ?_
  have key : ∀ (k : Ctx (Elem V)) (N : Nat) (_ : k.length + 2 ≤ N) (c : Color) (l : T (Elem V)) (e : Elem V) (r : T (Elem V)), t = plug (node c l e r) k →
      Triple nf (isShape a h g t ∗ F) (K (firstN (after k) h)) Q →
      Triple nf (isShape a h g t ∗ F) (incUp N e.node (upA h k) >>= K) Q := by
    clear hk ht hN
    intro k
    induction k with
    | nil =>
      intro N hN c l e r ht hk
      obtain ⟨N, rfl⟩ : ∃ N', N = N' + 2 := ⟨N - 2, by omega⟩
      have hl := toList_plug (t := node c l e r) (k := [])
      rw [← ht] at hl
      simp only [before_nil, after_nil, List.nil_append, List.append_nil, toList_node] at hl
      have hlast : ReadsN (isShape a h g t ∗ F) (h, 4) (lastN t.toList h) := rd_hright
      have hroot : ReadsN (isShape a h g t ∗ F) (h, 2) (rootA t) := rd_hroot
      have hrt : rootA t = e.node := by rw [ht]; rfl
      rw [hrt] at hroot
      have hne := hf.ne e (by rw [hl]; simp)
      have hi := lastN_eq_iff (h := h) (X := l.toList) (e := e) (Y := r.toList) (by rw [← hl]; exact hf.nodup)
      rw [← hl] at hi
      have hrr : rootA r ≠ h := by
        by_cases h1 : r = leaf
        · subst h1; exact fun h => hf.h0 h.symm
        · obtain ⟨y, hy, he⟩ := rootA_mem h1
          rw [he]
          exact (hf.ne y (by rw [hl]; simp [hy])).1
      unfold incUp
      simp only [bind_assoc, upA_nil, after_nil, CList.firstN_nil] at hk ⊢
      rw [climbRightF]
      rw [bind_assoc]
      refine ldN_reads hlast ?_
      by_cases h1 : r.toList = []
      · have h2 := hi.2 h1
        rw [if_pos h2.symm, bind_assoc]
        refine ldN_reads hroot ?_
        rw [climbRightF, bind_assoc]
        have hright := rd_right (a := a) (h := h) (g := g) (F := F) ht
        refine ldN_reads hright ?_
        rw [if_neg hrr]
        rw [pure_bind]
        dsimp only
        refine ldN_reads hlast ?_
        rw [← h2, if_neg (by simp), pure_bind]
        exact hk
      · have h2 := mt hi.1 h1
        have h2' : ¬ lastN t.toList h = e.node := fun h => h2 h.symm
        rw [if_neg h2', pure_bind]
        dsimp only
        have hright := rd_right (a := a) (h := h) (g := g) (F := F) ht
        refine ldN_reads hright ?_
        rw [if_pos (fun h => hrr h.symm), pure_bind]
        exact hk
    | cons f k ih =>
      intro N hN c l e r ht hk
      simp only [List.length_cons] at hN
      obtain ⟨N, rfl⟩ : ∃ N', N = N' + 1 := ⟨N - 1, by omega⟩
      cases f with
      | R c' l' e' =>
        have ht' : t = plug (node c' l' e' (node c l e r)) k := ht
        have := ih N (by omega) c' l' e' (node c l e r) ht' hk
        unfold incUp at this ⊢
        simp only [bind_assoc, upA_cons, Frame.elem_R] at this ⊢
        rw [climbRightF, bind_assoc]
        refine ldN_reads (rd_right ht') ?_
        rw [rootA_node, if_pos rfl, bind_assoc]
        exact ldN_reads (rd_parent ht') this
      | L c' e' r' =>
        have ht' : t = plug (node c' (node c l e r) e' r') k := ht
        have hl := toList_plug (t := node c' (node c l e r) e' r') (k := k)
        rw [← ht'] at hl
        simp only [toList_node] at hl
        have hnod := hf.nodup
        have hne := hf.ne e (by rw [hl]; simp)
        have h1 : rootA r' ≠ e.node := by
          by_cases h1 : r' = leaf
          · subst h1; exact fun h => hne.2.1 h.symm
          · obtain ⟨y, hy, he⟩ := rootA_mem h1
            rw [he]
            refine fun h => nodes_ne (A := before k ++ (l.toList ++ e :: r.toList)) (B := e' :: r'.toList ++ after k) (x := e) (y := y) ?_ (by simp) (by simp [hy]) h.symm
            rw [hl] at hnod
            simpa using hnod
        have h2 : e'.node ≠ rootA r := by
          by_cases h1 : r = leaf
          · subst h1; exact (hf.ne e' (by rw [hl]; simp)).2.1
          · obtain ⟨y, hy, he⟩ := rootA_mem h1
            rw [he]
            refine fun h => nodes_ne (A := before k ++ (l.toList ++ e :: r.toList)) (B := e' :: r'.toList ++ after k) (x := y) (y := e') ?_ (by simp [hy]) (by simp) h.symm
            rw [hl] at hnod
            simpa using hnod
        unfold incUp
        simp only [bind_assoc, upA_cons, Frame.elem_L]
        rw [climbRightF, bind_assoc]
        refine ldN_reads (rd_right ht') ?_
        rw [if_neg h1, pure_bind]
        dsimp only
        refine ldN_reads (rd_right ht) ?_
        rw [if_pos h2, pure_bind]
        simpa using hk
  exact key k N hN c l e r ht hk

/-- the next position -/
theorem incrementF_cps {K : Nat → M V β} (hN : t.height + 1 ≤ N) (ht : t.toList = X ++ e :: Y) (hk : Triple nf (isShape a h g t ∗ F) (K (firstN Y h)) Q) :
    Triple nf (isShape a h g t ∗ F) (iterIncrementF N e.node >>= K) Q := by
  obtain ⟨c, l, r, k, htk, hX, hY⟩ := exists_ctx ht
  refine with_facts fun hf => ?_
  have hlh := length_height_le (t := node c l e r) (k := k)
  rw [← htk] at hlh
  simp only [T.height] at hlh
  unfold iterIncrementF
  rw [bind_assoc]
  refine ldN_reads (rd_right htk) ?_
  by_cases hr : r = leaf
  · subst hr
    rw [if_neg (by simp), bind_assoc]
    refine ldN_reads (rd_parent htk) ?_
    refine incUp_cps (by omega) htk ?_
    rw [hY] at hk
    exact hk
  · obtain ⟨y, hy, he⟩ := rootA_mem hr
    have h0 : rootA r ≠ 0 := by rw [he]; exact (hf.ne y (by rw [ht, hY]; simp [hy])).2.1
    rw [if_pos h0, bind_assoc]
    refine ldN_reads (rd_right htk) ?_
    refine minimumF_cps (by omega) (k := .R c l e :: k) htk ?_
    have : firstN r.toList 0 = firstN Y h := by
      rw [hY, firstN_any (h' := 0)]
      cases r with
      | leaf => exact absurd rfl hr
      | node => simp
    rw [this]
    exact hk

/-- the next position -/
theorem increment_cps {K : Nat → M V β} (ht : t.toList = X ++ e :: Y) (hk : Triple nf (isShape a h g t ∗ F) (K (firstN Y h)) Q) :
    Triple nf (isShape a h g t ∗ F) (iterIncrement e.node >>= K) Q := Triple.leB (iterIncrementF_le (t.height + 1) e.node) (incrementF_cps (Nat.le_refl _) ht hk)

theorem isHeader_node_cps {K : Bool → M V β} (ht : t.toList = X ++ e :: Y) (hg : t.Good) (hk : Triple nf (isShape a h g t ∗ F) (K false) Q) :
    Triple nf (isShape a h g t ∗ F) (isHeader e.node >>= K) Q := by
  obtain ⟨c, l, r, k, htk, hX, hY⟩ := exists_ctx ht
  refine with_facts fun hf => ?_
  have hne := hf.ne e (by rw [ht]; simp)
  unfold isHeader
  rw [if_neg hne.2.1, bind_assoc]
  refine ldN_reads (rd_parent htk) ?_
  rw [bind_assoc]
  cases k with
  | nil =>
    have hc : c = .black := by
      have := hg.1
      rw [htk] at this
      exact this
    rw [upA_nil]
    refine ldN_reads rd_hroot ?_
    rw [if_pos (by rw [htk]; rfl), bind_assoc]
    refine ldN_reads (rd_color htk) ?_
    rw [pure_bind, hc]
    exact hk
  | cons f k =>
    have hp : ReadsN (isShape a h g t ∗ F) (f.elem.node, 2) (upA h k) := by
      cases f with
      | L c' e' r' => exact rd_parent (c := c') (l := node c l e r) (r := r') (e := e') (k := k) htk
      | R c' l' e' => exact rd_parent (c := c') (l := l') (r := node c l e r) (e := e') (k := k) htk
    rw [upA_cons]
    refine ldN_reads hp ?_
    have : upA h k ≠ e.node := by
      cases k with
      | nil => exact fun h => hne.1 h.symm
      | cons f' k =>
        rw [upA_cons]
        have hn := hf.nodup
        rw [htk, toList_plug] at hn
        intro he
        cases f <;> cases f' <;> simp [nodes, List.nodup_append] at he hn <;> grind
    rw [if_neg this, pure_bind]
    exact hk

theorem isHeader_end_cps {K : Bool → M V β} (ht : t ≠ leaf) (hk : Triple nf (isShape a h g t ∗ F) (K true) Q) :
    Triple nf (isShape a h g t ∗ F) (isHeader h >>= K) Q := by
  refine with_facts fun hf => ?_
  cases t with
  | leaf => exact absurd rfl ht
  | node c l e r =>
    unfold isHeader
    rw [if_neg hf.h0, bind_assoc]
    refine ldN_reads rd_hroot ?_
    rw [bind_assoc]
    refine ldN_reads (rd_parent (k := []) rfl) ?_
    rw [upA_nil, if_pos rfl, bind_assoc]
    refine ldN_reads rd_hcolor ?_
    rw [pure_bind]
    exact hk

theorem climbLeftF_cps {c : Color} {l r : T (Elem V)} {k : Ctx (Elem V)} {K : Nat → M V β} (hN : k.length + 1 ≤ N) (ht : t = plug (node c l e r) k) (hb : before k ≠ [])
    (hk : Triple nf (isShape a h g t ∗ F) (K (lastN (before k) h)) Q) :
    Triple nf (isShape a h g t ∗ F) (climbLeftF N e.node (upA h k) >>= K) Q := by
  refine with_facts fun hf => ?_
  induction k generalizing c l e r N with
  | nil => exact absurd rfl hb
  | cons f k ih =>
    simp only [List.length_cons] at hN
    obtain ⟨N, rfl⟩ : ∃ N', N = N' + 1 := ⟨N - 1, by omega⟩
    cases f with
    | L c' e' r' =>
      have ht' : t = plug (node c' (node c l e r) e' r') k := ht
      have := ih (N := N) (by omega) ht' (by simpa using hb) (by simpa using hk)
      simp only [upA_cons, Frame.elem_L]
      rw [climbLeftF, bind_assoc]
      refine ldN_reads (rd_left ht') ?_
      rw [rootA_node, if_pos rfl, bind_assoc]
      exact ldN_reads (rd_parent ht') this
    | R c' l' e' =>
      have ht' : t = plug (node c' l' e' (node c l e r)) k := ht
      have hl := toList_plug (t := node c' l' e' (node c l e r)) (k := k)
      rw [← ht'] at hl
      simp only [toList_node] at hl
      have hnod := hf.nodup
      have hne := hf.ne e (by rw [hl]; simp)
      have h1 : rootA l' ≠ e.node := by
        by_cases h1 : l' = leaf
        · subst h1; exact fun h => hne.2.1 h.symm
        · obtain ⟨y, hy, he⟩ := rootA_mem h1
          rw [he]
          refine fun h => nodes_ne (A := before k ++ l'.toList) (B := e' :: (l.toList ++ e :: r.toList) ++ after k) (x := y) (y := e) ?_ (by simp [hy]) (by simp) h
          rw [hl] at hnod
          simpa using hnod
      have h2 : lastN (before (.R c' l' e' :: k)) h = e'.node := by
        rw [before_R, ← List.append_assoc, lastN_snoc]
      rw [h2] at hk
      simp only [upA_cons, Frame.elem_R]
      rw [climbLeftF, bind_assoc]
      refine ldN_reads (rd_left ht') ?_
      rw [if_neg h1, pure_bind]
      exact hk

/-- the previous position -/
theorem decrementF_cps {K : Nat → M V β} (hN : t.height + 1 ≤ N) (ht : t.toList = X ++ e :: Y) (hg : t.Good) (hX0 : X ≠ []) (hk : Triple nf (isShape a h g t ∗ F) (K (lastN X h)) Q) :
    Triple nf (isShape a h g t ∗ F) (iterDecrementF N e.node >>= K) Q := by
  obtain ⟨c, l, r, k, htk, hX, hY⟩ := exists_ctx ht
  refine with_facts fun hf => ?_
  have hlh := length_height_le (t := node c l e r) (k := k)
  rw [← htk] at hlh
  simp only [T.height] at hlh
  unfold iterDecrementF
  rw [bind_assoc]
  refine isHeader_node_cps ht hg ?_
  simp only [Bool.false_eq_true, ↓reduceIte, bind_assoc]
  refine ldN_reads (rd_left htk) ?_
  by_cases hl : l = leaf
  · subst hl
    rw [if_neg (by simp), bind_assoc]
    refine ldN_reads (rd_parent htk) ?_
    simp only [toList_leaf, List.append_nil] at hX
    rw [hX] at hk hX0
    exact climbLeftF_cps (by omega) htk hX0 hk
  · obtain ⟨y, hy, he⟩ := rootA_mem hl
    have h0 : rootA l ≠ 0 := by rw [he]; exact (hf.ne y (by rw [ht, hX]; simp [hy])).2.1
    rw [if_pos h0, bind_assoc]
    refine ldN_reads (rd_left htk) ?_
    refine maximumF_cps (by omega) (k := .L c e r :: k) htk ?_
    have : lastN l.toList 0 = lastN X h := by
      rw [hX, lastN_any (h' := 0)]
      cases l with
      | leaf => exact absurd rfl hl
      | node => simp
    rw [this]
    exact hk

/-- the position before the end -/
theorem decrementF_end_cps {K : Nat → M V β} (ht : t ≠ leaf) (hk : Triple nf (isShape a h g t ∗ F) (K (lastN t.toList h)) Q) :
    Triple nf (isShape a h g t ∗ F) (iterDecrementF N h >>= K) Q := by
  unfold iterDecrementF
  rw [bind_assoc]
  refine isHeader_end_cps ht ?_
  simp only [↓reduceIte]
  exact ldN_reads rd_hright hk

end

/-- the position before any position that has one -/
theorem decrementF_pos {a h N : Nat} {g : Cfg} {t : T (Elem V)} {F : HProp V} {X Y : List (Elem V)} {Q : β → HProp V} {K : Nat → M V β}
    (hN : t.height + 1 ≤ N) (ht : t.toList = X ++ Y) (hg : t.Good) (hX0 : X ≠ []) (hk : Triple nf (isShape a h g t ∗ F) (K (lastN X h)) Q) :
    Triple nf (isShape a h g t ∗ F) (iterDecrementF N (firstN Y h) >>= K) Q := by
  cases Y with
  | nil =>
    rw [List.append_nil] at ht
    have : t ≠ leaf := by rintro rfl; exact hX0 ht.symm
    refine decrementF_end_cps this ?_
    rw [ht]
    exact hk
  | cons e Y => exact decrementF_cps hN ht hg hX0 hk

/-- the position before any position that has one -/
theorem decrement_pos {a h : Nat} {g : Cfg} {t : T (Elem V)} {F : HProp V} {X Y : List (Elem V)} {Q : β → HProp V} {K : Nat → M V β}
    (ht : t.toList = X ++ Y) (hg : t.Good) (hX0 : X ≠ []) (hk : Triple nf (isShape a h g t ∗ F) (K (lastN X h)) Q) :
    Triple nf (isShape a h g t ∗ F) (iterDecrement (firstN Y h) >>= K) Q :=
  Triple.leB (iterDecrementF_le (t.height + 1) (firstN Y h)) (decrementF_pos (Nat.le_refl _) ht hg hX0 hk)

section
variable {a h : Nat} {g : Cfg} {t : T (Elem V)} {F : HProp V} {Q : β → HProp V}

theorem mkIter_cps {x : Nat} {K : Nat → M V β} (hvt : g.vt ≠ 0) (hx : x ≠ 0) (hk : Triple nf (isShape a h g t ∗ F) (K x) Q) :
    Triple nf (isShape a h g t ∗ F) (mkIter a x >>= K) Q := by
  unfold mkIter
  rw [bind_assoc]
  refine ldN_reads rd_vtype ?_
  step
  step
  · simpa using hvt
  step
  step
  · simpa using hx
  rw [pure_bind]
  exact hk

theorem leftmost_cps {K : Nat → M V β} (hk : Triple nf (isShape a h g t ∗ F) (K (firstN t.toList h)) Q) :
    Triple nf (isShape a h g t ∗ F) (leftmost a >>= K) Q := by
  unfold leftmost
  rw [bind_assoc]
  exact ldN_reads rd_header (ldN_reads rd_hleft hk)

theorem begin_cps {K : Nat → M V β} (hvt : g.vt ≠ 0) (hk : Triple nf (isShape a h g t ∗ F) (K (firstN t.toList h)) Q) :
    Triple nf (isShape a h g t ∗ F) (begin_ a >>= K) Q := by
  refine with_facts fun hf => ?_
  unfold begin_
  step
  step
  · simpa using hf.a0
  rw [bind_assoc]
  refine leftmost_cps ?_
  exact mkIter_cps hvt (firstN_ne_zero hf (X := []) rfl) hk

theorem end_cps {K : Nat → M V β} (hvt : g.vt ≠ 0) (hk : Triple nf (isShape a h g t ∗ F) (K h) Q) :
    Triple nf (isShape a h g t ∗ F) (end_ a >>= K) Q := by
  refine with_facts fun hf => ?_
  unfold end_
  step
  step
  · simpa using hf.a0
  rw [bind_assoc]
  refine ldN_reads rd_header ?_
  exact mkIter_cps hvt hf.h0 hk

end

end CC.Tree.Bare
