/-!
# Red-black trees, mathematically

The shape of the linked structure of container/c_tree.c (`T`), the rest of a tree around one of its subtrees (`Ctx`, from the subtree up to the root), what the
rebalancing loops compute, and the red-black rules.  Nothing here is specific to memory.
-/
namespace CC.Tree
variable {α : Type}

inductive Color where
  | red | black
deriving DecidableEq, Repr

/-- c_tree.c:57-58: red is `false`, black is `true` -/
def Color.code : Color → Nat
  | .red => 0
  | .black => 1

theorem code_red : Color.red.code = 0 := rfl
theorem code_black : Color.black.code = 1 := rfl
theorem Color.code_inj {c d : Color} : c.code = d.code ↔ c = d := by
  cases c <;> cases d <;> simp [Color.code]

/-- the shape of a tree -/
inductive T (α : Type) where
  | leaf
  | node (c : Color) (l : T α) (e : α) (r : T α)
deriving Repr

namespace T
/-- in-order traversal -/
def toList : T α → List α
  | leaf => []
  | node _ l e r => l.toList ++ e :: r.toList

/-- a missing node counts as black -/
def color : T α → Color
  | leaf => .black
  | node c _ _ _ => c

def blacken : T α → T α
  | leaf => leaf
  | node _ l e r => node .black l e r

def height : T α → Nat
  | leaf => 0
  | node _ l _ r => max l.height r.height + 1

@[simp] theorem toList_leaf : (leaf : T α).toList = [] := rfl
@[simp] theorem toList_node {c : Color} {l r : T α} {e : α} : (node c l e r).toList = l.toList ++ e :: r.toList := rfl
@[simp] theorem toList_blacken (t : T α) : t.blacken.toList = t.toList := by cases t <;> rfl
@[simp] theorem color_leaf : (leaf : T α).color = .black := rfl
@[simp] theorem color_node {c : Color} {l r : T α} {e : α} : (node c l e r).color = c := rfl
@[simp] theorem color_blacken (t : T α) : t.blacken.color = .black := by cases t <;> rfl
theorem blacken_eq {t : T α} (h : t.color = .black) : t.blacken = t := by
  cases t with
  | leaf => rfl
  | node c l e r => simp at h; subst h; rfl
@[simp] theorem blacken_leaf : (leaf : T α).blacken = leaf := rfl
@[simp] theorem blacken_node {c : Color} {l r : T α} {e : α} : (node c l e r).blacken = node .black l e r := rfl

/-- The red-black rules, with black height `n`: a red node has no red child, and all paths down contain `n` black nodes. -/
def RB : T α → Nat → Prop
  | leaf, n => n = 0
  | node .red l _ r, n => RB l n ∧ RB r n ∧ l.color = .black ∧ r.color = .black
  | node .black _ _ _, 0 => False
  | node .black l _ r, n+1 => RB l n ∧ RB r n

@[simp] theorem RB_leaf {n : Nat} : (leaf : T α).RB n ↔ n = 0 := by simp [RB]
@[simp] theorem RB_red {l r : T α} {e : α} {n : Nat} :
    (node .red l e r).RB n ↔ l.RB n ∧ r.RB n ∧ l.color = .black ∧ r.color = .black := by simp [RB]
@[simp] theorem RB_black {l r : T α} {e : α} {n : Nat} : (node .black l e r).RB (n+1) ↔ l.RB n ∧ r.RB n := by simp [RB]
@[simp] theorem RB_black_zero {l r : T α} {e : α} : ¬ (node .black l e r).RB 0 := by simp [RB]

/-- a whole tree obeys the red-black rules: also, its root is black -/
def Good (t : T α) : Prop := t.color = .black ∧ ∃ n, t.RB n

theorem RB.size {t : T α} {n : Nat} (h : t.RB n) : 2 ^ n ≤ t.toList.length + 1 := by
  induction t generalizing n with
  | leaf => simp at h; subst h; simp
  | node c l e r ihl ihr =>
    cases c with
    | red =>
      simp at h
      have := ihl h.1
      simp; omega
    | black =>
      cases n with
      | zero => simp at h
      | succ n =>
        simp at h
        have h1 := ihl h.1
        have h2 := ihr h.2
        simp [Nat.pow_succ]; omega

theorem RB.height {t : T α} {n : Nat} (h : t.RB n) : t.height ≤ 2 * n + (if t.color = .red then 1 else 0) := by
  induction t generalizing n with
  | leaf => simp [T.height]
  | node c l e r ihl ihr =>
    cases c with
    | red =>
      simp at h
      have h1 := ihl h.1
      have h2 := ihr h.2.1
      simp [h.2.2.1] at h1
      simp [h.2.2.2] at h2
      simp [T.height]; omega
    | black =>
      cases n with
      | zero => simp at h
      | succ n =>
        simp at h
        have h1 := ihl h.1
        have h2 := ihr h.2
        simp [T.height]
        split at h1 <;> split at h2 <;> omega

/-- a good tree is balanced -/
theorem Good.height_le {t : T α} (h : t.Good) : t.height ≤ 2 * Nat.log2 (t.toList.length + 1) := by
  obtain ⟨hc, n, hn⟩ := h
  have h1 := hn.height
  have h2 := hn.size
  simp [hc] at h1
  have : n ≤ Nat.log2 (t.toList.length + 1) := (Nat.le_log2 (by omega)).2 h2
  omega

theorem RB.blacken {t : T α} {n : Nat} (h : t.RB n) : ∃ m, t.blacken.RB m := by
  cases t with
  | leaf => exact ⟨n, h⟩
  | node c l e r =>
    cases c with
    | red => exact ⟨n+1, by simp at h ⊢; exact ⟨h.1, h.2.1⟩⟩
    | black => exact ⟨n, h⟩
end T

open T

/-- one step from a subtree up: the parent, with the other subtree -/
inductive Frame (α : Type) where
  | L (c : Color) (e : α) (r : T α)   -- the subtree is the left child of `e`
  | R (c : Color) (l : T α) (e : α)   -- the subtree is the right child of `e`

namespace Frame
def color : Frame α → Color
  | L c _ _ => c
  | R c _ _ => c
def elem : Frame α → α
  | L _ e _ => e
  | R _ _ e => e
def sib : Frame α → T α
  | L _ _ r => r
  | R _ l _ => l
def plug (t : T α) : Frame α → T α
  | L c e r => node c t e r
  | R c l e => node c l e t
@[simp] theorem color_L {c : Color} {e : α} {r : T α} : (L c e r).color = c := rfl
@[simp] theorem color_R {c : Color} {e : α} {l : T α} : (R c l e).color = c := rfl
@[simp] theorem elem_L {c : Color} {e : α} {r : T α} : (L c e r).elem = e := rfl
@[simp] theorem elem_R {c : Color} {e : α} {l : T α} : (R c l e).elem = e := rfl
@[simp] theorem sib_L {c : Color} {e : α} {r : T α} : (L c e r).sib = r := rfl
@[simp] theorem sib_R {c : Color} {e : α} {l : T α} : (R c l e).sib = l := rfl
@[simp] theorem plug_L {c : Color} {e : α} {r t : T α} : (L c e r).plug t = node c t e r := rfl
@[simp] theorem plug_R {c : Color} {e : α} {l t : T α} : (R c l e).plug t = node c l e t := rfl
end Frame

/-- the rest of a tree around a subtree -/
abbrev Ctx (α : Type) := List (Frame α)

/-- the whole tree -/
def plug : T α → Ctx α → T α
  | t, [] => t
  | t, f :: k => plug (f.plug t) k

/-- the elements before the subtree -/
def before : Ctx α → List α
  | [] => []
  | .L _ _ _ :: k => before k
  | .R _ l e :: k => before k ++ (l.toList ++ [e])

/-- the elements after the subtree -/
def after : Ctx α → List α
  | [] => []
  | .L _ e r :: k => e :: r.toList ++ after k
  | .R _ _ _ :: k => after k

@[simp] theorem plug_nil {t : T α} : plug t [] = t := rfl
@[simp] theorem plug_cons {t : T α} {f : Frame α} {k : Ctx α} : plug t (f :: k) = plug (f.plug t) k := rfl
@[simp] theorem before_nil : before ([] : Ctx α) = [] := rfl
@[simp] theorem before_L {c : Color} {e : α} {r : T α} {k : Ctx α} : before (.L c e r :: k) = before k := rfl
@[simp] theorem before_R {c : Color} {e : α} {l : T α} {k : Ctx α} : before (.R c l e :: k) = before k ++ (l.toList ++ [e]) := rfl
@[simp] theorem after_nil : after ([] : Ctx α) = [] := rfl
@[simp] theorem after_L {c : Color} {e : α} {r : T α} {k : Ctx α} : after (.L c e r :: k) = e :: r.toList ++ after k := rfl
@[simp] theorem after_R {c : Color} {e : α} {l : T α} {k : Ctx α} : after (.R c l e :: k) = after k := rfl

theorem plug_append {t : T α} {k k' : Ctx α} : plug t (k ++ k') = plug (plug t k) k' := by
  induction k generalizing t with
  | nil => rfl
  | cons f k ih => simp [ih]

theorem before_append {k k' : Ctx α} : before (k ++ k') = before k' ++ before k := by
  induction k with
  | nil => simp
  | cons f k ih => cases f <;> simp [ih]

theorem after_append {k k' : Ctx α} : after (k ++ k') = after k ++ after k' := by
  induction k with
  | nil => simp
  | cons f k ih => cases f <;> simp [ih]

theorem toList_plug {t : T α} {k : Ctx α} : (plug t k).toList = before k ++ t.toList ++ after k := by
  induction k generalizing t with
  | nil => simp
  | cons f k ih => cases f <;> simp [ih]

/-- every element has a place in the tree -/
theorem exists_ctx {t : T α} {X Y : List α} {e : α} (h : t.toList = X ++ e :: Y) :
    ∃ c l r k, t = plug (node c l e r) k ∧ X = before k ++ l.toList ∧ Y = r.toList ++ after k := by
  induction t generalizing X Y with
  | leaf => simp at h
  | node c l e' r ihl ihr =>
    simp only [toList_node] at h
    rcases List.append_eq_append_iff.1 h with ⟨as, h1, h2⟩ | ⟨as, h1, h2⟩
    · cases as with
      | nil =>
        simp only [List.nil_append, List.cons.injEq, List.append_nil] at h1 h2
        obtain ⟨rfl, rfl⟩ := h2
        exact ⟨c, l, r, [], rfl, by simp [h1], by simp⟩
      | cons a as =>
        simp only [List.cons_append, List.cons.injEq] at h2
        obtain ⟨rfl, h2⟩ := h2
        obtain ⟨c', l', r', k, h3, h4, h5⟩ := ihr h2
        refine ⟨c', l', r', k ++ [.R c l e'], ?_, ?_, ?_⟩
        · rw [plug_append, ← h3]; rfl
        · rw [before_append]; simp [h1, h4]
        · rw [after_append]; simp [h5]
    · cases as with
      | nil =>
        simp only [List.nil_append, List.cons.injEq, List.append_nil] at h1 h2
        obtain ⟨rfl, rfl⟩ := h2
        exact ⟨c, l, r, [], rfl, by simp [h1], by simp⟩
      | cons a as =>
        simp only [List.cons_append, List.cons.injEq] at h2
        obtain ⟨rfl, rfl⟩ := h2
        obtain ⟨c', l', r', k, h3, h4, h5⟩ := ihl h1
        refine ⟨c', l', r', k ++ [.L c e' r], ?_, ?_, ?_⟩
        · rw [plug_append, ← h3]; rfl
        · rw [before_append]; simp [h4]
        · rw [after_append]; simp [h5]

/-- every gap between elements is a missing child somewhere -/
theorem exists_hole {t : T α} {X Y : List α} (h : t.toList = X ++ Y) : ∃ k, t = plug leaf k ∧ X = before k ∧ Y = after k := by
  induction t generalizing X Y with
  | leaf =>
    simp only [toList_leaf] at h
    obtain ⟨rfl, rfl⟩ := List.append_eq_nil_iff.1 h.symm
    exact ⟨[], rfl, rfl, rfl⟩
  | node c l e' r ihl ihr =>
    simp only [toList_node] at h
    rcases List.append_eq_append_iff.1 h with ⟨as, h1, h2⟩ | ⟨as, h1, h2⟩
    · cases as with
      | nil =>
        simp only [List.nil_append, List.append_nil] at h1 h2
        obtain ⟨k, h3, h4, h5⟩ := ihl (X := l.toList) (Y := []) (by simp)
        refine ⟨k ++ [.L c e' r], ?_, ?_, ?_⟩
        · rw [plug_append, ← h3]; rfl
        · rw [before_append]; simp [h1, ← h4]
        · rw [after_append]; simp [← h5, h2]
      | cons a as =>
        simp only [List.cons_append, List.cons.injEq] at h2
        obtain ⟨rfl, h2⟩ := h2
        obtain ⟨k, h3, h4, h5⟩ := ihr h2
        refine ⟨k ++ [.R c l e'], ?_, ?_, ?_⟩
        · rw [plug_append, ← h3]; rfl
        · rw [before_append]; simp [h1, h4]
        · rw [after_append]; simp [h5]
    · obtain ⟨k, h3, h4, h5⟩ := ihl h1
      refine ⟨k ++ [.L c e' r], ?_, ?_, ?_⟩
      · rw [plug_append, ← h3]; rfl
      · rw [before_append]; simp [h4]
      · rw [after_append]; simp [← h5, h2]

/-- the color of the parent of the subtree; the root has none, which counts as black -/
def topColor : Ctx α → Color
  | [] => .black
  | f :: _ => f.color
@[simp] theorem topColor_nil : topColor ([] : Ctx α) = .black := rfl
@[simp] theorem topColor_cons {f : Frame α} {k : Ctx α} : topColor (f :: k) = f.color := rfl

/-- black height seen from the parent -/
def Color.up : Color → Nat → Nat
  | .red, n => n
  | .black, n => n + 1

/-- the rest of a red-black tree around a subtree of black height `n` -/
def RBC : Ctx α → Nat → Prop
  | [], _ => True
  | f :: k, n => f.sib.RB n ∧ (f.color = .red → f.sib.color = .black ∧ k ≠ [] ∧ topColor k = .black) ∧ RBC k (f.color.up n)

@[simp] theorem RBC_nil {n : Nat} : RBC ([] : Ctx α) n ↔ True := by simp [RBC]
theorem RBC_cons {f : Frame α} {k : Ctx α} {n : Nat} :
    RBC (f :: k) n ↔ f.sib.RB n ∧ (f.color = .red → f.sib.color = .black ∧ k ≠ [] ∧ topColor k = .black) ∧ RBC k (f.color.up n) := Iff.rfl

theorem RB_plugF {f : Frame α} {t : T α} {n : Nat} (ht : t.RB n) (hs : f.sib.RB n) (hc : f.color = .red → t.color = .black ∧ f.sib.color = .black) :
    (f.plug t).RB (f.color.up n) := by
  cases f with
  | L c e r => cases c with
    | red => simp [Color.up] at *; exact ⟨ht, hs, hc⟩
    | black => simp [Color.up] at *; exact ⟨ht, hs⟩
  | R c l e => cases c with
    | red => simp [Color.up] at *; exact ⟨hs, ht, hc.2, hc.1⟩
    | black => simp [Color.up] at *; exact ⟨hs, ht⟩

theorem plugF_color {f : Frame α} {t : T α} : (f.plug t).color = f.color := by cases f <;> rfl

/-- a good subtree in a good context -/
theorem Good_plug {t : T α} {k : Ctx α} {n : Nat} (hk : RBC k n) (ht : t.RB n) (h0 : k = [] ∨ topColor k = .red → t.color = .black) : (plug t k).Good := by
  induction k generalizing t n with
  | nil => exact ⟨h0 (Or.inl rfl), n, ht⟩
  | cons f k ih =>
    obtain ⟨h1, h2, h3⟩ := hk
    refine ih h3 (RB_plugF ht h1 fun hc => ⟨h0 (Or.inr hc), (h2 hc).1⟩) ?_
    rintro h
    rw [plugF_color]
    cases hc : f.color with
    | black => rfl
    | red =>
      obtain ⟨_, h4, h5⟩ := h2 hc
      rcases h with h | h
      · exact absurd h h4
      · rw [h5] at h; cases h

theorem ctx_inv {t : T α} {k : Ctx α} {m : Nat} (h : (plug t k).RB m) (hc : (plug t k).color = .black) :
    ∃ n, t.RB n ∧ RBC k n ∧ (k = [] ∨ topColor k = .red → t.color = .black) := by
  induction k generalizing t with
  | nil => exact ⟨m, h, trivial, fun _ => hc⟩
  | cons f k ih =>
    obtain ⟨n, h1, h2, h3⟩ := ih h hc
    rw [plugF_color] at h3
    cases f with
    | L c e r =>
      cases c with
      | red =>
        simp only [Frame.plug_L, RB_red] at h1
        refine ⟨n, h1.1, ⟨h1.2.1, fun _ => ⟨h1.2.2.2, ?_, ?_⟩, h2⟩, fun _ => h1.2.2.1⟩
        · rintro rfl; simp at h3
        · cases hk : topColor k with
          | black => rfl
          | red => simp [hk] at h3
      | black =>
        cases n with
        | zero => simp at h1
        | succ n =>
          simp only [Frame.plug_L, RB_black] at h1
          exact ⟨n, h1.1, ⟨h1.2, by simp, h2⟩, by simp⟩
    | R c l e =>
      cases c with
      | red =>
        simp only [Frame.plug_R, RB_red] at h1
        refine ⟨n, h1.2.1, ⟨h1.1, fun _ => ⟨h1.2.2.1, ?_, ?_⟩, h2⟩, fun _ => h1.2.2.2⟩
        · rintro rfl; simp at h3
        · cases hk : topColor k with
          | black => rfl
          | red => simp [hk] at h3
      | black =>
        cases n with
        | zero => simp at h1
        | succ n =>
          simp only [Frame.plug_R, RB_black] at h1
          exact ⟨n, h1.2, ⟨h1.1, by simp, h2⟩, by simp⟩

theorem Good.ctx {t : T α} {k : Ctx α} (h : (plug t k).Good) : ∃ n, t.RB n ∧ RBC k n ∧ (k = [] ∨ topColor k = .red → t.color = .black) := by
  obtain ⟨hc, m, hm⟩ := h
  exact ctx_inv hm hc

/-! ## Insertion -/

/-- What the loop of `__rebalance_insert` (c_tree.c:323-363) makes of a tree in which the subtree `t` has just become red; `(p, g)` are parent and grandparent.
The result is the whole tree, before its root is blackened. -/
def insLoop : T α → Ctx α → T α
  | t, f :: g :: k =>
    if f.color = .black then plug t (f :: g :: k) else
    match f, g with
    | .L _ p s, .L _ g u =>
      if u.color = .red then insLoop (node .red (node .black t p s) g u.blacken) k
      else plug (node .black t p (node .red s g u)) k
    | .R _ s p, .L _ g u =>
      if u.color = .red then insLoop (node .red (node .black s p t) g u.blacken) k
      else match t with
        | leaf => plug leaf (.R .red s p :: .L .black g u :: k)
        | node c tl e tr => plug (node .black (node .red s p tl) e (node .red tr g u)) k
    | .R _ s p, .R _ u g =>
      if u.color = .red then insLoop (node .red u.blacken g (node .black s p t)) k
      else plug (node .black (node .red u g s) p t) k
    | .L _ p s, .R _ u g =>
      if u.color = .red then insLoop (node .red u.blacken g (node .black t p s)) k
      else match t with
        | leaf => plug leaf (.L .red p s :: .R .black u g :: k)
        | node c tl e tr => plug (node .black (node .red u g tl) e (node .red tr p s)) k
  | t, k => plug t k
termination_by t k => k.length

theorem insLoop_black {t : T α} {k : Ctx α} (h : k = [] ∨ topColor k = .black) : insLoop t k = plug t k := by
  match k with
  | [] => simp [insLoop]
  | [f] => simp [insLoop]
  | f :: g :: k =>
    simp at h
    rw [insLoop.eq_def]
    simp [h]

theorem toList_insLoop {t : T α} {k : Ctx α} : (insLoop t k).toList = before k ++ t.toList ++ after k := by
  induction hn : k.length using Nat.strongRecOn generalizing t k with
  | _ n ih =>
  subst hn
  match k with
  | [] => simp [insLoop]
  | [f] => rw [insLoop.eq_def]; simp only; rw [toList_plug]
  | f :: g :: k =>
    rw [insLoop.eq_def]
    simp only
    split
    · rw [toList_plug]
    · cases f <;> cases g <;> simp only <;> split <;> first
        | (rw [ih _ (by simp <;> omega) rfl]; simp)
        | (rw [toList_plug]; simp)
        | (cases t <;> simp only [toList_plug] <;> simp)

theorem insLoop_good {t : T α} {k : Ctx α} {n : Nat} (ht : t.RB n) (hr : t.color = .red) (hk : RBC k n) : (insLoop t k).blacken.Good := by
  induction hn : k.length using Nat.strongRecOn generalizing t k n with
  | _ m ih =>
  subst hn
  by_cases hb : k = [] ∨ topColor k = .black
  · rw [insLoop_black hb]
    by_cases h0 : k = []
    · subst h0
      exact ⟨color_blacken _, ht.blacken⟩
    · have hb := hb.resolve_left h0
      have := Good_plug hk ht (by rintro (h | h); exact absurd h h0; rw [hb] at h; cases h)
      rw [blacken_eq this.1]
      exact this
  · match k, hk with
    | [], _ => simp at hb
    | [f], hk =>
      obtain ⟨h1, h2, h3⟩ := hk
      cases hf : f.color with
      | black => simp [hf] at hb
      | red => exact absurd rfl (h2 hf).2.1
    | f :: g :: k, hk =>
      simp at hb
      obtain ⟨h1, h2, h3, h4, h5⟩ := hk
      have hfr : f.color = .red := by cases hf : f.color <;> simp_all
      have hgb : g.color = .black := by have := h2 hfr; simpa using this.2.2
      have hsib := (h2 hfr).1
      rw [hfr, hgb] at h5
      rw [hfr] at h3
      simp only [Color.up] at h5 h3
      rw [insLoop.eq_def]
      simp only [hfr, reduceCtorEq, ↓reduceIte]
      obtain ⟨cc, tl, te, tr, rfl⟩ : ∃ cc tl te tr, t = node cc tl te tr := by
        cases t with
        | leaf => simp at hr
        | node cc tl te tr => exact ⟨_, _, _, _, rfl⟩
      simp at hr
      subst hr
      simp only [RB_red] at ht
      have huc : ∀ u : T α, u.RB n → u.color = .red → u.blacken.RB (n+1) := by
        intro u hu hc
        cases u with
        | leaf => simp at hc
        | node c l e r => simp at hc; subst hc; simp at hu ⊢; exact ⟨hu.1, hu.2.1⟩
      have hgoodplug : ∀ s : T α, s.RB (n+1) → s.color = .black → (plug s k).blacken.Good := by
        intro s hs hc
        have := Good_plug h5 hs (fun _ => hc)
        rw [blacken_eq this.1]; exact this
      cases f with
      | L fc fe fs =>
        simp at hfr h1 hsib; subst hfr
        cases g with
        | L gc ge gs =>
          simp at hgb h3; subst hgb
          simp only
          by_cases hu : gs.color = .red
          · rw [if_pos hu]
            refine ih _ (by simp <;> omega) (n := n+1) ?_ rfl h5 rfl
            simp [ht, h1, huc _ h3 hu]
          · rw [if_neg hu]
            have hu : gs.color = .black := by cases hg : gs.color <;> simp_all
            exact hgoodplug _ (by simp [ht, h1, h3, hu, hsib]) rfl
        | R gc gs ge =>
          simp at hgb h3; subst hgb
          simp only
          by_cases hu : gs.color = .red
          · rw [if_pos hu]
            refine ih _ (by simp <;> omega) (n := n+1) ?_ rfl h5 rfl
            simp [ht, h1, huc _ h3 hu]
          · rw [if_neg hu]
            have hu : gs.color = .black := by cases hg : gs.color <;> simp_all
            exact hgoodplug _ (by simp [ht, h1, h3, hu, hsib]) rfl
      | R fc fs fe =>
        simp at hfr h1 hsib; subst hfr
        cases g with
        | L gc ge gs =>
          simp at hgb h3; subst hgb
          simp only
          by_cases hu : gs.color = .red
          · rw [if_pos hu]
            refine ih _ (by simp <;> omega) (n := n+1) ?_ rfl h5 rfl
            simp [ht, h1, huc _ h3 hu]
          · rw [if_neg hu]
            have hu : gs.color = .black := by cases hg : gs.color <;> simp_all
            exact hgoodplug _ (by simp [ht, h1, h3, hu, hsib]) rfl
        | R gc gs ge =>
          simp at hgb h3; subst hgb
          simp only
          by_cases hu : gs.color = .red
          · rw [if_pos hu]
            refine ih _ (by simp <;> omega) (n := n+1) ?_ rfl h5 rfl
            simp [ht, h1, huc _ h3 hu]
          · rw [if_neg hu]
            have hu : gs.color = .black := by cases hg : gs.color <;> simp_all
            exact hgoodplug _ (by simp [ht, h1, h3, hu, hsib]) rfl

/-! ## Erasure -/

/-- One round of the loop of `__rebalance_erase` (c_tree.c:470-552) once the sibling is black: `t`, left child of `e` (of color `cp`), lacks one black node; its
sibling is `node black sl se sr`.  The result, and whether the problem has moved up to it. -/
def delL (cp : Color) (t : T α) (e : α) (sl : T α) (se : α) (sr : T α) : T α × Bool :=
  if sl.color = .black ∧ sr.color = .black then (node cp t e (node .red sl se sr), true)
  else if sr.color = .black then
    match sl with
    | node _ sll sle slr => (node cp (node .black t e sll) sle (node .black slr se sr), false)
    | leaf => (leaf, false)
  else (node cp (node .black t e sl) se sr.blacken, false)

/-- the mirror image of `delL` -/
def delR (cp : Color) (sl : T α) (se : α) (sr : T α) (e : α) (t : T α) : T α × Bool :=
  if sl.color = .black ∧ sr.color = .black then (node cp (node .red sl se sr) e t, true)
  else if sl.color = .black then
    match sr with
    | node _ srl sre srr => (node cp (node .black sl se srl) sre (node .black srr e t), false)
    | leaf => (leaf, false)
  else (node cp sl.blacken se (node .black sr e t), false)

/-- What the loop of `__rebalance_erase` makes of a tree in which the subtree `t` lacks one black node. -/
def delLoop : T α → Ctx α → T α
  | t, [] => t.blacken
  | t, f :: k =>
    if t.color = .red then plug t.blacken (f :: k) else
    match f with
    | .L cp e (node .black sl se sr) =>
      if (delL cp t e sl se sr).2 then delLoop (delL cp t e sl se sr).1 k else plug (delL cp t e sl se sr).1 k
    | .L cp e (node .red (node _ a b c) se sr) =>
      -- after a rotation the parent is red: if the problem moves up it ends there
      if (delL .red t e a b c).2 then plug (delL .red t e a b c).1.blacken (.L .black se sr :: k)
      else plug (delL .red t e a b c).1 (.L .black se sr :: k)
    | .R cp (node .black sl se sr) e =>
      if (delR cp sl se sr e t).2 then delLoop (delR cp sl se sr e t).1 k else plug (delR cp sl se sr e t).1 k
    | .R cp (node .red sl se (node _ a b c)) e =>
      if (delR .red a b c e t).2 then plug (delR .red a b c e t).1.blacken (.R .black sl se :: k)
      else plug (delR .red a b c e t).1 (.R .black sl se :: k)
    | f => plug t (f :: k)

theorem toList_delL {cp : Color} {t : T α} {e : α} {sl : T α} {se : α} {sr : T α} :
    (delL cp t e sl se sr).1.toList = t.toList ++ e :: (sl.toList ++ se :: sr.toList) := by
  unfold delL
  split
  · simp
  · split
    · cases sl with
      | leaf => simp_all
      | node => simp
    · simp

theorem toList_delR {cp : Color} {t : T α} {e : α} {sl : T α} {se : α} {sr : T α} :
    (delR cp sl se sr e t).1.toList = sl.toList ++ se :: (sr.toList ++ e :: t.toList) := by
  unfold delR
  split
  · simp
  · split
    · cases sr with
      | leaf => simp_all
      | node => simp
    · simp

theorem toList_delLoop {t : T α} {k : Ctx α} : (delLoop t k).toList = before k ++ t.toList ++ after k := by
  induction k generalizing t with
  | nil => simp [delLoop]
  | cons f k ih =>
    rw [delLoop.eq_def]
    simp only
    split
    · rw [toList_plug]; simp
    · split <;> (try split) <;> first
        | (rw [toList_plug]; done)
        | simp [ih, toList_plug, toList_delL, toList_delR]

theorem red_of_not_black {t : T α} (h : ¬ t.color = .black) : ∃ l e r, t = node .red l e r := by
  cases t with
  | leaf => simp at h
  | node c l e r => cases c with
    | red => exact ⟨l, e, r, rfl⟩
    | black => simp at h

theorem delL_color {cp : Color} {t : T α} {e : α} {sl : T α} {se : α} {sr : T α} : (delL cp t e sl se sr).1.color = cp := by
  unfold delL
  split
  · rfl
  · split
    · cases sl with
      | leaf => simp_all
      | node => rfl
    · rfl

theorem delR_color {cp : Color} {t : T α} {e : α} {sl : T α} {se : α} {sr : T α} : (delR cp sl se sr e t).1.color = cp := by
  unfold delR
  split
  · rfl
  · split
    · cases sr with
      | leaf => simp_all
      | node => rfl
    · rfl

theorem delL_up {cp : Color} {t : T α} {e : α} {sl : T α} {se : α} {sr : T α} {n : Nat} (ht : t.RB n) (hl : sl.RB n) (hr : sr.RB n)
    (h : (delL cp t e sl se sr).2 = true) : (delL cp t e sl se sr).1.blacken.RB (n+1) := by
  unfold delL at h ⊢
  by_cases h1 : sl.color = .black ∧ sr.color = .black
  · rw [if_pos h1]
    simp [ht, hl, hr, h1]
  · rw [if_neg h1] at h
    split at h
    · cases sl <;> simp at h
    · simp at h

theorem delR_up {cp : Color} {t : T α} {e : α} {sl : T α} {se : α} {sr : T α} {n : Nat} (ht : t.RB n) (hl : sl.RB n) (hr : sr.RB n)
    (h : (delR cp sl se sr e t).2 = true) : (delR cp sl se sr e t).1.blacken.RB (n+1) := by
  unfold delR at h ⊢
  by_cases h1 : sl.color = .black ∧ sr.color = .black
  · rw [if_pos h1]
    simp [ht, hl, hr, h1]
  · rw [if_neg h1] at h
    split at h
    · cases sr <;> simp at h
    · simp at h

theorem delL_done {cp : Color} {t : T α} {e : α} {sl : T α} {se : α} {sr : T α} {n : Nat} (ht : t.RB n) (hl : sl.RB n) (hr : sr.RB n)
    (h : ¬ (delL cp t e sl se sr).2 = true) : (delL cp t e sl se sr).1.RB (cp.up (n+1)) := by
  unfold delL at h ⊢
  by_cases h1 : sl.color = .black ∧ sr.color = .black
  · rw [if_pos h1] at h; simp at h
  · rw [if_neg h1]
    by_cases h2 : sr.color = .black
    · rw [if_pos h2]
      obtain ⟨a, b, c, rfl⟩ := red_of_not_black (fun h => h1 ⟨h, h2⟩)
      simp at hl
      cases cp <;> simp [Color.up, ht, hl, hr]
    · rw [if_neg h2]
      obtain ⟨a, b, c, rfl⟩ := red_of_not_black h2
      simp at hr
      cases cp <;> simp [Color.up, ht, hl, hr]

theorem delR_done {cp : Color} {t : T α} {e : α} {sl : T α} {se : α} {sr : T α} {n : Nat} (ht : t.RB n) (hl : sl.RB n) (hr : sr.RB n)
    (h : ¬ (delR cp sl se sr e t).2 = true) : (delR cp sl se sr e t).1.RB (cp.up (n+1)) := by
  unfold delR at h ⊢
  by_cases h1 : sl.color = .black ∧ sr.color = .black
  · rw [if_pos h1] at h; simp at h
  · rw [if_neg h1]
    by_cases h2 : sl.color = .black
    · rw [if_pos h2]
      obtain ⟨a, b, c, rfl⟩ := red_of_not_black (fun h => h1 ⟨h2, h⟩)
      simp at hr
      cases cp <;> simp [Color.up, ht, hl, hr]
    · rw [if_neg h2]
      obtain ⟨a, b, c, rfl⟩ := red_of_not_black h2
      simp at hl
      cases cp <;> simp [Color.up, ht, hl, hr]

/-- a subtree lacking one black node: black (and otherwise fine), or red and fixed by blackening -/
def Short (t : T α) (n : Nat) : Prop := (t.color = .black → t.RB n) ∧ (t.color = .red → t.blacken.RB (n+1))

theorem delLoop_good {t : T α} {k : Ctx α} {n : Nat} (ht : Short t n) (hk : RBC k (n+1)) : (delLoop t k).Good := by
  induction k generalizing t n with
  | nil =>
    rw [delLoop.eq_def]
    dsimp only
    refine ⟨color_blacken _, ?_⟩
    cases hc : t.color with
    | red => exact ⟨_, ht.2 hc⟩
    | black => exact ⟨n, by rw [blacken_eq hc]; exact ht.1 hc⟩
  | cons f k ih =>
    rw [delLoop.eq_def]
    simp only
    by_cases hc : t.color = .red
    · rw [if_pos hc]
      exact Good_plug hk (ht.2 hc) (fun _ => color_blacken _)
    rw [if_neg hc]
    have hc : t.color = .black := by cases h : t.color <;> simp_all
    have hn := ht.1 hc
    have hkl : RBC (f :: k) (n+1) := hk
    obtain ⟨h1, h2, h3⟩ := hk
    have hup : ∀ s : T α, s.color = f.color → s.blacken.RB (n+1) → Short s (match f.color with | .red => n | .black => n+1) := by
      intro s hs hb
      cases hf : f.color with
      | red =>
        rw [hf] at hs
        exact ⟨fun h => (by rw [hs] at h; cases h), fun _ => hb⟩
      | black =>
        rw [hf] at hs
        rw [blacken_eq hs] at hb
        exact ⟨fun _ => hb, fun h => (by rw [hs] at h; cases h)⟩
    have hk' : RBC k ((match f.color with | .red => n | .black => n+1) + 1) := by
      cases hf : f.color <;> rw [hf] at h3 <;> exact h3
    have hnored : ∀ s : T α, s.color = f.color → k = [] ∨ topColor k = .red → s.color = .black := by
      intro s hs h
      rw [hs]
      cases hf : f.color with
      | black => rfl
      | red =>
        obtain ⟨_, h4, h5⟩ := h2 hf
        rcases h with h | h
        · exact absurd h h4
        · rw [h5] at h; cases h
    cases f with
    | L cp e s =>
      cases s with
      | leaf => simp at h1
      | node sc sl se sr =>
        cases sc with
        | black =>
          simp at h1
          simp only
          by_cases hd : (delL cp t e sl se sr).2 = true
          · rw [if_pos hd]
            exact ih (hup _ delL_color (delL_up hn h1.1 h1.2 hd)) hk'
          · rw [if_neg hd]
            exact Good_plug h3 (delL_done hn h1.1 h1.2 hd) (hnored _ delL_color)
        | red =>
          simp at h1 h2
          obtain ⟨hl, hr, hlb, hrb⟩ := h1
          cases cp with
          | red => exact absurd rfl h2
          | black =>
          cases sl with
          | leaf => simp at hl
          | node sc a b c =>
            simp at hlb
            subst hlb
            simp at hl
            simp only
            by_cases hd : (delL .red t e a b c).2 = true
            · rw [if_pos hd]
              refine Good_plug (n := n+1) ⟨hr, by simp, h3⟩ (delL_up hn hl.1 hl.2 hd) (by simp)
            · rw [if_neg hd]
              refine Good_plug (n := n+1) ⟨hr, by simp, h3⟩ (delL_done hn hl.1 hl.2 hd) (by simp)
    | R cp s e =>
      cases s with
      | leaf => simp at h1
      | node sc sl se sr =>
        cases sc with
        | black =>
          simp at h1
          simp only
          by_cases hd : (delR cp sl se sr e t).2 = true
          · rw [if_pos hd]
            exact ih (hup _ delR_color (delR_up hn h1.1 h1.2 hd)) hk'
          · rw [if_neg hd]
            exact Good_plug h3 (delR_done hn h1.1 h1.2 hd) (hnored _ delR_color)
        | red =>
          simp at h1 h2
          obtain ⟨hl, hr, hlb, hrb⟩ := h1
          cases cp with
          | red => exact absurd rfl h2
          | black =>
          cases sr with
          | leaf => simp at hr
          | node sc a b c =>
            simp at hrb
            subst hrb
            simp at hr
            simp only
            by_cases hd : (delR .red a b c e t).2 = true
            · rw [if_pos hd]
              refine Good_plug (n := n+1) ⟨hl, by simp, h3⟩ (delR_up hn hr.1 hr.2 hd) (by simp)
            · rw [if_neg hd]
              refine Good_plug (n := n+1) ⟨hl, by simp, h3⟩ (delR_done hn hr.1 hr.2 hd) (by simp)

/-- removing the node at the hole of `k`, of color `c`, that had the single child `t` (or none) -/
def unlink (c : Color) (t : T α) (k : Ctx α) : T α := if c = .black then delLoop t k else plug t k

theorem toList_unlink {c : Color} {t : T α} {k : Ctx α} : (unlink c t k).toList = before k ++ t.toList ++ after k := by
  unfold unlink
  split
  · exact toList_delLoop
  · exact toList_plug

/-- the rules for a node with at most one child -/
theorem unlink_good {c : Color} {t l r : T α} {k : Ctx α} {e : α} {n : Nat} (h : (node c l e r).RB n) (hk : RBC k n)
    (hc : k = [] ∨ topColor k = .red → c = .black) (hlr : (l = leaf ∧ t = r) ∨ (r = leaf ∧ t = l)) : (unlink c t k).Good := by
  unfold unlink
  cases c with
  | black =>
    rw [if_pos rfl]
    cases n with
    | zero => simp at h
    | succ n =>
      simp at h
      have ht : t.RB n := by rcases hlr with ⟨_, rfl⟩ | ⟨_, rfl⟩; exact h.2; exact h.1
      refine delLoop_good (n := n) ⟨fun _ => ht, fun hc => ?_⟩ hk
      cases t with
      | leaf => simp at hc
      | node c a b d => simp at hc; subst hc; simp at ht ⊢; exact ⟨ht.1, ht.2.1⟩
  | red =>
    rw [if_neg (by simp)]
    simp at h
    have ht : t.RB n ∧ t.color = .black := by rcases hlr with ⟨_, rfl⟩ | ⟨_, rfl⟩; exact ⟨h.2.1, h.2.2.2⟩; exact ⟨h.1, h.2.2.1⟩
    exact Good_plug hk ht.1 (fun _ => ht.2)

/-- the way down to the least element of a tree: only left turns -/
theorem spine_spec {t : T α} {k : Ctx α} (ht : t ≠ leaf) : ∃ c e r k', plug t k = plug (node c leaf e r) (k' ++ k) ∧ before (k' ++ k) = before k ∧
    t = plug (node c leaf e r) k' ∧ (∀ f ∈ k', ∃ c e r, f = .L c e r) := by
  induction t generalizing k with
  | leaf => exact absurd rfl ht
  | node c l e r ihl _ =>
    by_cases hl : l = leaf
    · subst hl
      exact ⟨c, e, r, [], rfl, rfl, rfl, by simp⟩
    · obtain ⟨c', e', r', k', h1, h2, h3, h4⟩ := ihl (k := .L c e r :: k) hl
      refine ⟨c', e', r', k' ++ [.L c e r], ?_, ?_, ?_, ?_⟩
      · simp at h1 ⊢; exact h1
      · simp at h2 ⊢; exact h2
      · rw [plug_append, ← h3]; rfl
      · intro f hf
        rcases List.mem_append.1 hf with hf | hf
        · exact h4 f hf
        · simp at hf; exact ⟨_, _, _, hf⟩

theorem RBC_swap {k' k : Ctx α} {c : Color} {l : T α} {e m : α} {n : Nat} (h : RBC (k' ++ .R c l e :: k) n) : RBC (k' ++ .R c l m :: k) n := by
  induction k' generalizing n with
  | nil => exact h
  | cons f k' ih =>
    obtain ⟨h1, h2, h3⟩ := h
    refine ⟨h1, fun hf => ?_, ih h3⟩
    obtain ⟨h4, h5, h6⟩ := h2 hf
    refine ⟨h4, by simp, ?_⟩
    cases k' with
    | nil => exact h6
    | cons => exact h6

theorem topColor_swap {k' k : Ctx α} {c : Color} {l : T α} {e m : α} : topColor (k' ++ .R c l m :: k) = topColor (k' ++ .R c l e :: k) := by
  cases k' <;> rfl

end CC.Tree
