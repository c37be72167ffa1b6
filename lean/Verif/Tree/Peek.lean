import Verif.Tree.Rep
/-!
# Reading a tree: where its fields are, and why its nodes are different
-/
namespace CC
variable {V β : Type} {nf : Prop}

/-- in every fragment satisfying `P`, the location holds the number `n` -/
def ReadsN (P : HProp V) (l : Loc) (n : Nat) : Prop := ∀ h, P h → h l = some (.num n)

theorem ReadsN.of_eq {P R : HProp V} {l : Loc} {n : Nat} (h : P = (pts l (.num n) ∗ R)) : ReadsN P l n := by
  intro m hm
  rw [h] at hm
  exact pts_sep_cells hm
theorem ReadsN.of_ent {P R : HProp V} {l : Loc} {n : Nat} (h : P ⊢ₛ (pts l (.num n) ∗ R)) : ReadsN P l n :=
  fun m hm => pts_sep_cells (h m hm)
theorem ReadsN.left {P Q : HProp V} {l : Loc} {n : Nat} (hr : ReadsN P l n) : ReadsN (P ∗ Q) l n := by
  rintro h ⟨h₁, h₂, _, rfl, hp, _⟩
  simp [Heap.union, hr _ hp]
theorem ReadsN.right {P Q : HProp V} {l : Loc} {n : Nat} (hr : ReadsN Q l n) : ReadsN (P ∗ Q) l n := by
  rw [sep_comm]; exact hr.left

theorem ldN_reads {P : HProp V} {Q : β → HProp V} {l : Loc} {n : Nat} {k : Nat → M V β} (hr : ReadsN P l n)
    (h : Triple nf P (k n) Q) : Triple nf P (ldN l >>= k) Q := by
  intro s F hnf hs
  obtain ⟨b, s', e, ho, hq⟩ := h s.bump F hnf hs
  refine ⟨b, s', ?_, ho, hq⟩
  have hc : s.cells l = some (.num n) := hr.left _ hs
  rw [← e]
  simp [ldN, load, Bind.bind, StateT.bind, ExceptT.bind, ExceptT.mk, Option.bind, ExceptT.bindCont, hc,
    get, getThe, MonadStateOf.get, StateT.get, set, StateT.set, Pure.pure, StateT.pure, ExceptT.pure]
end CC

namespace CC.Tree
open CC CC.Tac T
open CC.CList (Elem nodes vals firstN lastN)
variable {V β : Type} {nf : Prop}

/-! ### a node in its tree -/

theorem peek {h : Nat} {c : Color} {l r : T (Elem V)} {e : Elem V} {k : Ctx (Elem V)} {t : T (Elem V)} (ht : t = plug (node c l e r) k) :
    ∃ R, (fld h 2 (rootA t) ∗ tr h t) = (nd e c.code (upA h k) (rootA l) (rootA r) ∗ R) := by
  refine ⟨cx h e.node k ∗ tr e.node l ∗ tr e.node r, ?_⟩
  have := cx_plug (h := h) (t := node c l e r) (k := k)
  rw [rootA_node, tr_node] at this
  rw [ht, ← this]
  ac_rfl

section
variable {a h : Nat} {g : Cfg} {t : T (Elem V)} {F : HProp V}

theorem shape_peek {c : Color} {l r : T (Elem V)} {e : Elem V} {k : Ctx (Elem V)} (ht : t = plug (node c l e r) k) :
    ∃ R, isShape a h g t = (nd e c.code (upA h k) (rootA l) (rootA r) ∗ R) := by
  obtain ⟨R, hR⟩ := peek (h := h) ht
  exact ⟨hdr a h g t.toList.length (firstN t.toList h) (lastN t.toList h) ∗ R, by unfold isShape; rw [hR]; ac_rfl⟩

theorem rd_color {c : Color} {l r : T (Elem V)} {e : Elem V} {k : Ctx (Elem V)} (ht : t = plug (node c l e r) k) : ReadsN (isShape a h g t ∗ F) (e.node, 1) c.code := by
  obtain ⟨R, hR⟩ := shape_peek (a := a) (h := h) (g := g) ht
  rw [hR, nd]
  exact .of_ent (by cancel)
theorem rd_parent {c : Color} {l r : T (Elem V)} {e : Elem V} {k : Ctx (Elem V)} (ht : t = plug (node c l e r) k) : ReadsN (isShape a h g t ∗ F) (e.node, 2) (upA h k) := by
  obtain ⟨R, hR⟩ := shape_peek (a := a) (h := h) (g := g) ht
  rw [hR, nd]
  exact .of_ent (by cancel)
theorem rd_left {c : Color} {l r : T (Elem V)} {e : Elem V} {k : Ctx (Elem V)} (ht : t = plug (node c l e r) k) : ReadsN (isShape a h g t ∗ F) (e.node, 3) (rootA l) := by
  obtain ⟨R, hR⟩ := shape_peek (a := a) (h := h) (g := g) ht
  rw [hR, nd]
  exact .of_ent (by cancel)
theorem rd_right {c : Color} {l r : T (Elem V)} {e : Elem V} {k : Ctx (Elem V)} (ht : t = plug (node c l e r) k) : ReadsN (isShape a h g t ∗ F) (e.node, 4) (rootA r) := by
  obtain ⟨R, hR⟩ := shape_peek (a := a) (h := h) (g := g) ht
  rw [hR, nd]
  exact .of_ent (by cancel)

theorem rd_tkov : ReadsN (isShape a h g t ∗ F) (a, 4) g.kov := .of_ent (R := _) (by unfold isShape hdr consts; cancel)
theorem rd_tcmp : ReadsN (isShape a h g t ∗ F) (a, 5) g.cmp := .of_ent (by unfold isShape hdr consts; cancel)
theorem rd_vtype : ReadsN (isShape a h g t ∗ F) (a, 2) g.vt := .of_ent (by unfold isShape hdr consts; cancel)
theorem rd_header : ReadsN (isShape a h g t ∗ F) (a, 6) h := .of_ent (by unfold isShape hdr consts; cancel)
theorem rd_count : ReadsN (isShape a h g t ∗ F) (a, 7) t.toList.length := .of_ent (by unfold isShape hdr consts; cancel)
theorem rd_hcolor : ReadsN (isShape a h g t ∗ F) (h, 1) 0 := .of_ent (by unfold isShape hdr consts; cancel)
theorem rd_hroot : ReadsN (isShape a h g t ∗ F) (h, 2) (rootA t) := .of_ent (by unfold isShape hdr consts; cancel)
theorem rd_hleft : ReadsN (isShape a h g t ∗ F) (h, 3) (firstN t.toList h) := .of_ent (by unfold isShape hdr consts; cancel)
theorem rd_hright : ReadsN (isShape a h g t ∗ F) (h, 4) (lastN t.toList h) := .of_ent (by unfold isShape hdr consts; cancel)
end

/-! ### the elements of a tree -/

/-- what the elements own -/
def elms : List (Elem V) → HProp V
  | [] => emp
  | e :: es => elm e ∗ elms es
theorem elms_nil : elms (V := V) [] = emp := rfl
theorem elms_cons {e : Elem V} {es : List (Elem V)} : elms (e :: es) = (elm e ∗ elms es) := rfl
theorem elms_append {xs ys : List (Elem V)} : elms (xs ++ ys) = (elms xs ∗ elms ys) := by
  induction xs with
  | nil => simp [elms_nil]
  | cons e xs ih => rw [List.cons_append, elms_cons, elms_cons, ih, sep_assoc]

theorem tr_elms {p : Nat} {t : T (Elem V)} : ∃ R, tr p t = (elms t.toList ∗ R) := by
  induction t generalizing p with
  | leaf => exact ⟨emp, by simp [tr_leaf, elms_nil]⟩
  | node c l e r ihl ihr =>
    obtain ⟨R1, h1⟩ := ihl (p := e.node)
    obtain ⟨R2, h2⟩ := ihr (p := e.node)
    refine ⟨fld e.node 1 c.code ∗ fld e.node 2 p ∗ fld e.node 3 (rootA l) ∗ fld e.node 4 (rootA r) ∗ R1 ∗ R2, ?_⟩
    rw [tr_node, h1, h2, nd, toList_node, elms_append, elms_cons]
    ac_rfl

theorem elms_ne {y n : Nat} {es : List (Elem V)} {R : HProp V} {m : Heap V} (hh : (elms es ∗ blk y n ∗ R) m) : ∀ e ∈ es, e.node ≠ y ∧ e.box ≠ y ∧ e.node ≠ 0 ∧ e.box ≠ 0 := by
  induction es generalizing R with
  | nil => simp
  | cons e es ih =>
    intro e' he'
    rw [elms_cons, elm] at hh
    rcases List.mem_cons.1 he' with rfl | he'
    · refine ⟨fun h => ?_, fun h => ?_, ?_, ?_⟩
      · exact loc_ne_of hh (l₁ := (e'.node, 0)) (l₂ := (y, 0)) (R := _) (by cancel) (by rw [h])
      · exact loc_ne_of hh (l₁ := (e'.box, 0)) (l₂ := (y, 0)) (R := _) (by cancel) (by rw [h])
      · simp only [sep_assoc] at hh
        exact pts_ne_zero hh
      · refine pts_ne_zero (l := (e'.box, 0)) (v := .sz 1) (R := (blk e'.node 5 ∗ fld e'.node 5 e'.box ∗ pts (e'.box, 1) (.obj (some e'.val))) ∗ elms es ∗ blk y n ∗ R) ((show _ ⊢ₛ _ by cancel) _ hh)
    · exact ih (R := elm e ∗ R) ((show _ ⊢ₛ _ by unfold elm; cancel) _ hh) e' he'

theorem elms_nodup {es : List (Elem V)} {R : HProp V} {m : Heap V} (hh : (elms es ∗ R) m) : (nodes es).Nodup := by
  induction es generalizing R with
  | nil => simp [nodes]
  | cons e es ih =>
    rw [elms_cons] at hh
    simp only [nodes, List.map_cons, List.nodup_cons, List.mem_map, not_exists, not_and]
    refine ⟨fun e' he' hee => ?_, ih (R := elm e ∗ R) ((show _ ⊢ₛ _ by cancel) _ hh)⟩
    exact (elms_ne (y := e.node) (n := 5) (R := (fld e.node 5 e.box ∗ blk e.box 1 ∗ pts (e.box, 1) (.obj (some e.val))) ∗ R) ((show _ ⊢ₛ _ by unfold elm; cancel) _ hh) e' he').1 hee

/-- what a client may assume about addresses -/
structure Facts (a h : Nat) (es : List (Elem V)) : Prop where
  nodup : (nodes es).Nodup
  a0 : a ≠ 0
  h0 : h ≠ 0
  ne : ∀ e ∈ es, e.node ≠ h ∧ e.node ≠ 0 ∧ e.box ≠ 0 ∧ e.node ≠ a

theorem shape_facts {a h : Nat} {g : Cfg} {t : T (Elem V)} {F : HProp V} {m : Heap V} (hh : (isShape a h g t ∗ F) m) : Facts a h t.toList := by
  obtain ⟨R, hR⟩ := tr_elms (p := h) (t := t)
  rw [isShape, hR, hdr, consts] at hh
  refine ⟨elms_nodup (R := _) ((show _ ⊢ₛ _ by cancel) _ hh), ?_, ?_, fun e he => ?_⟩
  · exact pts_ne_zero (l := (a, 0)) (v := .sz 7) (R := _) ((show _ ⊢ₛ _ by cancel) _ hh)
  · exact pts_ne_zero (l := (h, 0)) (v := .sz 5) (R := _) ((show _ ⊢ₛ _ by cancel) _ hh)
  · have h1 := elms_ne (y := h) (n := 5) (es := t.toList) (R := _) ((show _ ⊢ₛ _ by cancel) _ hh) e he
    have h2 := elms_ne (y := a) (n := 7) (es := t.toList) (R := _) ((show _ ⊢ₛ _ by cancel) _ hh) e he
    exact ⟨h1.1, h1.2.2.1, h1.2.2.2, h2.1⟩

theorem with_facts {a h : Nat} {g : Cfg} {t : T (Elem V)} {F : HProp V} {m : M V β} {Q : β → HProp V}
    (hk : Facts a h t.toList → Triple nf (isShape a h g t ∗ F) m Q) : Triple nf (isShape a h g t ∗ F) m Q :=
  Triple.fact (fun _ hm => shape_facts hm) hk

/-- the value and the storage of an element -/
theorem shape_elm {a h : Nat} {g : Cfg} {t : T (Elem V)} {X Y : List (Elem V)} {e : Elem V} (ht : t.toList = X ++ e :: Y) : ∃ R, isShape a h g t = (elm e ∗ R) := by
  obtain ⟨R, hR⟩ := tr_elms (p := h) (t := t)
  refine ⟨hdr a h g t.toList.length (firstN t.toList h) (lastN t.toList h) ∗ fld h 2 (rootA t) ∗ elms X ∗ elms Y ∗ R, ?_⟩
  rw [isShape, hR, ht, elms_append, elms_cons]
  ac_rfl

theorem rd_box {a h : Nat} {g : Cfg} {t : T (Elem V)} {F : HProp V} {X Y : List (Elem V)} {e : Elem V} (ht : t.toList = X ++ e :: Y) :
    ReadsN (isShape a h g t ∗ F) (e.node, 5) e.box := by
  obtain ⟨R, hR⟩ := shape_elm (a := a) (h := h) (g := g) ht
  rw [hR, elm]
  exact .of_ent (by cancel)
theorem rd_val {a h : Nat} {g : Cfg} {t : T (Elem V)} {F : HProp V} {X Y : List (Elem V)} {e : Elem V} (ht : t.toList = X ++ e :: Y) :
    Reads (isShape a h g t ∗ F) (e.box, 1) e.val := by
  obtain ⟨R, hR⟩ := shape_elm (a := a) (h := h) (g := g) ht
  rw [hR, elm]
  intro m hm
  exact pts_sep_cells (R := _) ((show _ ⊢ₛ _ by cancel) _ hm)

end CC.Tree
