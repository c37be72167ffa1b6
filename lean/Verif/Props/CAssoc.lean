import Verif.Tree.Assoc
/-!
# C57, C58: sets, multisets, maps and multimaps as abstract data types

Theorems about whole client programs: create two containers, run any history of operations on them, destroy both.  The specification is Spec/Assoc.lean.
-/
namespace CC
open CC.Tac CC.Assoc
open CC.Tree (Env Cfg leaked)
variable {V K W : Type} {R : HProp V} {os : List (AssocOp2 Loc Loc)} {key_type value_type key_comp : Nat}

theorem run_unique {α κ A B : Type} {key : α → κ} {lt : κ → κ → Bool} {ρ : A → Nat → α} {ϰ : B → κ} {os : List (AssocOp2 A B)} {outs : List (AOut α)} {p p' : List α × List α}
    (h1 : UniqueOk key lt p.1) (h2 : UniqueOk key lt p.2) (h : Runs (AssocStep2 key lt true ρ ϰ) os p outs p') : UniqueOk key lt p'.1 ∧ UniqueOk key lt p'.2 := by
  induction h with
  | nil s => exact ⟨h1, h2⟩
  | cons hs _ ih =>
    have := hs.uniqueOk h1 h2
    exact ih this.1 this.2

/-! ## C57 sets and multisets: the key of an element is the element itself -/

/-- the order of `c_set_create(type, key_comp)` and the key function `__c_identity` -/
structure SetEnv (E : Env V) (key_comp : Nat) : Prop where
  identity : ∀ v, E.kov IDENTITY v = v
  order : StrictWeak (E.cmp key_comp)

/-- Any history on two sets gives the observations of the abstract set; elements are always strictly ascending.  After destroying, the client's memory is unchanged, apart from the header
nodes that `c_tree_destroy` does not release (C39). -/
theorem C57_set {E : Env V} {ρ : Loc → Nat → V} {ϰ : Loc → V} (hE : SetEnv E key_comp) (ht : key_type ≠ 0) (hc : key_comp ≠ 0)
    (ha : ∀ o ∈ os, OpArgs2 id id ρ ϰ R o) :
    Triple True R ((setApi E key_type key_comp).life os)
      (fun r => ∃ₛ outs p h k, ⌜r = some outs ∧ Runs (AssocStep2 id (E.cmp key_comp) true ρ ϰ) os ([], []) outs p ∧ UniqueOk id (E.cmp key_comp) p.1 ∧ UniqueOk id (E.cmp key_comp) p.2⌝ ∗
        leaked h ∗ leaked k ∗ R) := by
  rw [setApi_eq]
  have S : Std E ⟨key_type, key_type, NULL_TYPE, IDENTITY, key_comp⟩ (id : V → V) (id : V → V) id (E.cmp key_comp) := ⟨hE.order, hE.identity, fun _ _ => rfl⟩
  refine Triple.post (life_spec S ⟨ht, ht, by simp, hc⟩ ha) fun r => ?_
  refine ent_ex_left fun outs => ent_ex_left fun p => ent_ex_left fun h => ent_ex_left fun k => ent_pure_left fun h1 => ?_
  apply ent_ex_right outs
  apply ent_ex_right p
  apply ent_ex_right h
  apply ent_ex_right k
  refine ent_pure_right ⟨?_, h1.2.1, run_unique (p := ([], [])) List.Pairwise.nil List.Pairwise.nil h1.2.1⟩ (ent_refl _)
  rw [h1.1]
  congr 1
  have : (AOut.map (id : V → V)) = id := by funext o; cases o <;> simp [AOut.map]
  rw [this, List.map_id]

/-- Any history on two multisets gives the observations of the abstract multiset; equivalent elements stay in the order of insertion (`InsMulti`). -/
theorem C57_multiset {E : Env V} {ρ : Loc → Nat → V} {ϰ : Loc → V} (hE : SetEnv E key_comp) (ht : key_type ≠ 0) (hc : key_comp ≠ 0)
    (ha : ∀ o ∈ os, OpArgs2 id id ρ ϰ R o) :
    Triple True R ((multisetApi E key_type key_comp).life os)
      (fun r => ∃ₛ outs p h k, ⌜r = some outs ∧ Runs (AssocStep2 id (E.cmp key_comp) false ρ ϰ) os ([], []) outs p ∧ MultiOk id (E.cmp key_comp) p.1 ∧ MultiOk id (E.cmp key_comp) p.2⌝ ∗
        leaked h ∗ leaked k ∗ R) := by
  rw [multisetApi_eq]
  have S : Std E ⟨key_type, key_type, NULL_TYPE, IDENTITY, key_comp⟩ (id : V → V) (id : V → V) id (E.cmp key_comp) := ⟨hE.order, hE.identity, fun _ _ => rfl⟩
  refine Triple.post (life_spec S ⟨ht, ht, by simp, hc⟩ ha) fun r => ?_
  refine ent_ex_left fun outs => ent_ex_left fun p => ent_ex_left fun h => ent_ex_left fun k => ent_pure_left fun h1 => ?_
  apply ent_ex_right outs
  apply ent_ex_right p
  apply ent_ex_right h
  apply ent_ex_right k
  refine ent_pure_right ⟨?_, h1.2.1, h1.2.2⟩ (ent_refl _)
  rw [h1.1]
  congr 1
  have : (AOut.map (id : V → V)) = id := by funext o; cases o <;> simp [AOut.map]
  rw [this, List.map_id]

/-! ## C58 maps and multimaps: elements are pairs, ordered by their first components -/

/-- An object a map's functions handle: a key or a pair (`c_pair_t`, include/c_def.h:226-231). -/
inductive Item (K W : Type) where
  | key (k : K)
  | pair (k : K) (m : W)

/-- an element of a map as it is stored -/
def Item.ofPair (x : K × W) : Item K W := .pair x.1 x.2

/-- The functions stored in a map: `__key_of_pair` (c_map.c:31-34) returns the first component; the comparison works on keys (a pair is not a key: all pairs are equivalent for it, and greater than keys). -/
def mapEnv (cmp : Nat → K → K → Bool) : Env (Item K W) where
  kov f x := if f = KEY_OF_PAIR then (match x with | .key k => .key k | .pair k _ => .key k) else x
  cmp c x y := match x, y with
    | .key a, .key b => cmp c a b
    | .key _, .pair _ _ => true
    | _, _ => false

theorem mapEnv_weak {cmp : Nat → K → K → Bool} {c : Nat} (h : StrictWeak (cmp c)) : StrictWeak ((mapEnv (W := W) cmp).cmp c) := by
  refine ⟨fun x => ?_, fun x y z => ?_, fun x y z => ?_⟩
  · cases x with
    | key a => exact h.irrefl a
    | pair a b => rfl
  · cases x <;> cases y <;> cases z <;> simp only [mapEnv, Bool.false_eq_true, false_implies, implies_true]
    exact h.trans _ _ _
  · cases x <;> cases y <;> cases z <;> simp only [mapEnv, Bool.false_eq_true, Bool.true_eq_false, and_false, false_and, false_implies, implies_true, and_self, and_true]
    exact h.incomp_trans _ _ _

theorem mapStd {cmp : Nat → K → K → Bool} (h : StrictWeak (cmp key_comp)) :
    Std (mapEnv cmp) ⟨key_type, PAIR, value_type, KEY_OF_PAIR, key_comp⟩ (Item.ofPair (K := K) (W := W)) Item.key Prod.fst (cmp key_comp) :=
  ⟨mapEnv_weak h, fun _ => rfl, fun _ _ => rfl⟩

/-- Any history on two maps gives the observations of the abstract map (a list of key-value pairs with strictly ascending keys); insertion never overwrites the value of an existing key. -/
theorem C58_map {R : HProp (Item K W)} {cmp : Nat → K → K → Bool} {ρ : Loc → Nat → K × W} {ϰ : Loc → K} (hw : StrictWeak (cmp key_comp)) (ht : key_type ≠ 0) (hc : key_comp ≠ 0)
    (ha : ∀ o ∈ os, OpArgs2 Item.ofPair Item.key ρ ϰ R o) :
    Triple True R ((mapApi (mapEnv cmp) key_type value_type key_comp).life os)
      (fun r => ∃ₛ outs p h k, ⌜r = some (outs.map (AOut.map Item.ofPair)) ∧ Runs (AssocStep2 Prod.fst (cmp key_comp) true ρ ϰ) os ([], []) outs p ∧
        UniqueOk Prod.fst (cmp key_comp) p.1 ∧ UniqueOk Prod.fst (cmp key_comp) p.2⌝ ∗ leaked h ∗ leaked k ∗ R) := by
  rw [mapApi_eq]
  refine Triple.post (life_spec (mapStd hw) ⟨ht, by simp, by simp, hc⟩ ha) fun r => ?_
  refine ent_ex_left fun outs => ent_ex_left fun p => ent_ex_left fun h => ent_ex_left fun k => ent_pure_left fun h1 => ?_
  apply ent_ex_right outs
  apply ent_ex_right p
  apply ent_ex_right h
  apply ent_ex_right k
  exact ent_pure_right ⟨h1.1, h1.2.1, run_unique (p := ([], [])) List.Pairwise.nil List.Pairwise.nil h1.2.1⟩ (ent_refl _)

/-- Any history on two multimaps gives the observations of the abstract multimap. -/
theorem C58_multimap {R : HProp (Item K W)} {cmp : Nat → K → K → Bool} {ρ : Loc → Nat → K × W} {ϰ : Loc → K} (hw : StrictWeak (cmp key_comp)) (ht : key_type ≠ 0) (hc : key_comp ≠ 0)
    (ha : ∀ o ∈ os, OpArgs2 Item.ofPair Item.key ρ ϰ R o) :
    Triple True R ((multimapApi (mapEnv cmp) key_type value_type key_comp).life os)
      (fun r => ∃ₛ outs p h k, ⌜r = some (outs.map (AOut.map Item.ofPair)) ∧ Runs (AssocStep2 Prod.fst (cmp key_comp) false ρ ϰ) os ([], []) outs p ∧
        MultiOk Prod.fst (cmp key_comp) p.1 ∧ MultiOk Prod.fst (cmp key_comp) p.2⌝ ∗ leaked h ∗ leaked k ∗ R) := by
  rw [multimapApi_eq]
  refine Triple.post (life_spec (mapStd hw) ⟨ht, by simp, by simp, hc⟩ ha) fun r => ?_
  refine ent_ex_left fun outs => ent_ex_left fun p => ent_ex_left fun h => ent_ex_left fun k => ent_pure_left fun h1 => ?_
  apply ent_ex_right outs
  apply ent_ex_right p
  apply ent_ex_right h
  apply ent_ex_right k
  exact ent_pure_right ⟨h1.1, h1.2.1, h1.2.2⟩ (ent_refl _)

/-- In terms of finite functions: inserting (k, m) binds k to m if k is not bound and changes nothing otherwise. -/
theorem C58_insert_lookup {ρ : Loc → Nat → K × W} {ϰ : Loc → K} {lt : K → K → Bool} (hw : StrictWeak lt) {st st' : List (K × W)} {out : AOut (K × W)} {l : Loc}
    (h : AssocStep Prod.fst lt true ρ ϰ (.insert l) st out st') (c : K) :
    lookup lt st' c = if equivB lt c (ρ l 0).1 && (lookup lt st (ρ l 0).1).isNone then some (ρ l 0).2 else lookup lt st c := by
  obtain ⟨i, y, _, h⟩ := h
  exact lookup_insert hw h

/-- Erasing a key unbinds it and no other key. -/
theorem C58_erase_lookup {ρ : Loc → Nat → K × W} {ϰ : Loc → K} {lt : K → K → Bool} {u : Bool} (hw : StrictWeak lt) {st st' : List (K × W)} {out : AOut (K × W)} {l : Loc}
    (h : AssocStep Prod.fst lt u ρ ϰ (.eraseKey l) st out st') (c : K) : lookup lt st' c = if equivB lt c (ϰ l) then none else lookup lt st c := by
  rw [h.2]
  exact lookup_eraseKey hw

/-! ### the hypotheses are met -/

private def ltC (_ : Nat) (x y : Nat) : Bool := decide (x < y)
private theorem ltC_weak {c : Nat} : StrictWeak (ltC c) := by
  refine ⟨fun a => by simp [ltC], fun a b c h1 h2 => ?_, fun a b c h1 h2 => ?_⟩
  · simp only [ltC, decide_eq_true_eq] at *; omega
  · simp only [ltC, decide_eq_false_iff_not] at *; omega

/-- a client with a pair (5, 7) and a key 5 -/
example : OpArgs2 (V := Item Nat Nat) Item.ofPair Item.key (fun _ _ => (5, 7)) (fun _ => 5)
    (pts (100, 1) (.obj (some (Item.pair 5 7))) ∗ pts (101, 1) (.obj (some (Item.key 5)))) (.on false (.insert (100, 1))) :=
  ⟨by simp, fun m hm => pts_sep_cells (R := _) hm⟩
example : OpArgs2 (V := Item Nat Nat) Item.ofPair Item.key (fun _ _ => (5, 7)) (fun _ => 5)
    (pts (100, 1) (.obj (some (Item.pair 5 7))) ∗ pts (101, 1) (.obj (some (Item.key 5)))) (.on true (.find (101, 1))) :=
  ⟨by simp, fun m hm => pts_sep_cells (R := _) ((show _ ⊢ₛ _ by cancel) _ hm)⟩
example : OpArgs2 (V := Item Nat Nat) Item.ofPair Item.key (fun _ j => (5 + j, 7)) (fun _ => 5)
    (arr 100 1 [.obj (some (Item.pair 5 7)), .obj (some (Item.pair 6 7))] ∗ emp) (.on false (.insertFrom (100, 1) 2)) :=
  ⟨by simp, emp, rfl⟩
example : SetEnv (V := Nat) ⟨fun _ v => v, ltC⟩ 1 := ⟨fun _ => rfl, ltC_weak (c := 1)⟩
/-- a set history: insert 5 twice, look for it, copy everything to the second set, swap, read -/
example := C57_set (V := Nat) (key_type := 1) (key_comp := 1) (R := pts (100, 1) (.obj (some 5)) ∗ emp) (ρ := fun _ _ => 5) (ϰ := fun _ => 5)
  (os := [.on false (.insert (100, 1)), .on false (.insertHint 0 (100, 1)), .on false (.find (100, 1)), .copyRange true 0 1, .swap, .on false .contents])
  (E := ⟨fun _ v => v, ltC⟩) ⟨fun _ => rfl, ltC_weak (c := 1)⟩ (by simp) (by simp) (by
    intro o ho
    have hr : Reads (V := Nat) (pts (100, 1) (.obj (some 5)) ∗ emp) (100, 1) 5 := fun m hm => pts_sep_cells (R := _) hm
    simp only [List.mem_cons, List.not_mem_nil, or_false] at ho
    rcases ho with rfl | rfl | rfl | rfl | rfl | rfl
    · exact ⟨by simp, hr⟩
    · exact ⟨by simp, hr⟩
    · exact ⟨by simp, hr⟩
    · trivial
    · trivial
    · trivial)
/-- the specification tells what that history observes at the end: the second set's contents -/
example {ρ : Loc → Nat → Nat} {ϰ : Loc → Nat} {outs : List (AOut Nat)} {p : List Nat × List Nat}
    (h : Runs (AssocStep2 id (ltC 1) true ρ ϰ) [.on false (.insert (100, 1)), .on false .contents] ([], []) outs p) : outs = [.pos 0 (some (ρ (100, 1) 0)), .all [ρ (100, 1) 0]] := by
  cases h with
  | cons h1 h =>
    cases h with
    | cons h2 h =>
      cases h
      obtain ⟨s1, ⟨i, y, rfl, h1⟩, rfl⟩ := h1
      obtain ⟨s2, ⟨rfl, rfl⟩, rfl⟩ := h2
      rcases h1 with ⟨_, h1, _⟩ | ⟨_, rfl, h1, rfl, _⟩
      · simp [sel] at h1
      · simp only [sel, Bool.false_eq_true, ↓reduceIte, List.length_nil, Nat.le_zero_eq] at h1
        subst h1
        rfl

end CC
