import Verif.Tree.SetMap
import Verif.Tree.Range
import Verif.Tree.History
import Verif.Spec.Assoc
import Verif.Spec.Adapter
/-!
# Client programs of sets and maps, and what they observe
-/
namespace CC
open CC CC.Tac
open CC.CList (Elem nodes vals firstN lastN)

/-- the functions of one kind of container, as a client sees them -/
structure Api (V : Type) where
  create : M V Addr
  destroy : Addr → M V Unit
  begin_ : Addr → M V Addr
  end_ : Addr → M V Addr
  rbegin : Addr → M V Addr
  rend : Addr → M V Addr
  empty : Addr → M V Bool
  size : Addr → M V Nat
  clear : Addr → M V Unit
  insertValue : Addr → Loc → M V Addr
  insert : Addr → Addr → Loc → M V Addr
  insertRange : Addr → Addr → Addr → M V Unit
  insertFrom : Addr → Loc → Loc → M V Unit
  erase : Addr → Addr → M V Addr
  eraseKey : Addr → Loc → M V Nat
  eraseRange : Addr → Addr → Addr → M V Unit
  swap : Addr → Addr → M V Unit
  find : Addr → Loc → M V Addr
  count : Addr → Loc → M V Nat
  lowerBound : Addr → Loc → M V Addr
  upperBound : Addr → Loc → M V Addr

variable {V : Type}

/-- the functions of c_set.c, c_set.c:32-154 -/
def setApi (E : Tree.Env V) (key_type key_comp : Nat) : Api V :=
  ⟨CSet.create key_type key_comp, CSet.destroy, CSet.begin_, CSet.end_, CSet.rbegin, CSet.rend, CSet.empty, CSet.size, CSet.clear, CSet.insertValue E, CSet.insert E, CSet.insertRange E,
    CSet.insertFrom E, CSet.erase, CSet.eraseKey E, CSet.eraseRange, CSet.swap, CSet.find E, CSet.count E, CSet.lowerBound E, CSet.upperBound E⟩
/-- the multiset functions of c_set.c, c_set.c:157-281 -/
def multisetApi (E : Tree.Env V) (key_type key_comp : Nat) : Api V :=
  ⟨CMultiset.create key_type key_comp, CMultiset.destroy, CMultiset.begin_, CMultiset.end_, CMultiset.rbegin, CMultiset.rend, CMultiset.empty, CMultiset.size, CMultiset.clear,
    CMultiset.insertValue E, CMultiset.insert E, CMultiset.insertRange E, CMultiset.insertFrom E, CMultiset.erase, CMultiset.eraseKey E, CMultiset.eraseRange, CMultiset.swap,
    CMultiset.find E, CMultiset.count E, CMultiset.lowerBound E, CMultiset.upperBound E⟩
/-- the functions of c_map.c, c_map.c:36-160 -/
def mapApi (E : Tree.Env V) (key_type value_type key_comp : Nat) : Api V :=
  ⟨CMap.create key_type value_type key_comp, CMap.destroy, CMap.begin_, CMap.end_, CMap.rbegin, CMap.rend, CMap.empty, CMap.size, CMap.clear, CMap.insertValue E, CMap.insert E, CMap.insertRange E,
    CMap.insertFrom E, CMap.erase, CMap.eraseKey E, CMap.eraseRange, CMap.swap, CMap.find E, CMap.count E, CMap.lowerBound E, CMap.upperBound E⟩
/-- the multimap functions of c_map.c, c_map.c:162-290 -/
def multimapApi (E : Tree.Env V) (key_type value_type key_comp : Nat) : Api V :=
  ⟨CMultimap.create key_type value_type key_comp, CMultimap.destroy, CMultimap.begin_, CMultimap.end_, CMultimap.rbegin, CMultimap.rend, CMultimap.empty, CMultimap.size, CMultimap.clear,
    CMultimap.insertValue E, CMultimap.insert E, CMultimap.insertRange E, CMultimap.insertFrom E, CMultimap.erase, CMultimap.eraseKey E, CMultimap.eraseRange, CMultimap.swap,
    CMultimap.find E, CMultimap.count E, CMultimap.lowerBound E, CMultimap.upperBound E⟩

namespace Api

/-- the client looks where an iterator is: its distance from the beginning and the element it designates -/
def locate (P : Api V) (c it : Addr) : M V (AOut V) := do
  let b ← P.begin_ c
  let n ← Tree.iterDistance b it
  let e ← P.end_ c
  if it = e then pure (.pos n none) else do
  let l ← Tree.iterDereference it
  let v ← ldV l
  pure (.pos n (some v))

/-- the iterator at distance `i` from the beginning -/
def at_ (P : Api V) (c : Addr) (i : Nat) : M V Addr := do
  let b ← P.begin_ c
  Tree.iterAdvance b (Int.ofNat i)

/-- the client program for one operation on the container `c` -/
def run (P : Api V) (c : Addr) : AssocOp Loc Loc → M V (AOut V)
  | .insert l => do
    let r ← P.insertValue c l
    P.locate c r
  | .insertHint h l => do
    let n ← P.size c
    let p ← P.at_ c (min h n)
    let r ← P.insert c p l
    P.locate c r
  | .insertFrom l n => do
    P.insertFrom c l (l.1, l.2 + n)
    pure .done
  | .erase i => do
    let n ← P.size c
    if i < n then do
      let p ← P.at_ c i
      let r ← P.erase c p
      P.locate c r
    else pure .done
  | .eraseRange i j => do
    let n ← P.size c
    if i ≤ j ∧ j ≤ n then do
      let p ← P.at_ c i
      let q ← P.at_ c j
      P.eraseRange c p q
      pure .done
    else pure .done
  | .eraseKey k => do
    let n ← P.eraseKey c k
    pure (.num n)
  | .clear => do
    P.clear c
    pure .done
  | .find k => do
    let r ← P.find c k
    P.locate c r
  | .count k => do
    let n ← P.count c k
    pure (.num n)
  | .lower k => do
    let r ← P.lowerBound c k
    P.locate c r
  | .upper k => do
    let r ← P.upperBound c k
    P.locate c r
  | .size => do
    let n ← P.size c
    pure (.num n)
  | .empty => do
    let b ← P.empty c
    pure (.flag b)
  | .contents => do
    let b ← P.begin_ c
    let e ← P.end_ c
    let vs ← Tree.walkFwd b e
    pure (.all vs)
  | .contentsRev => do
    let b ← P.rbegin c
    let e ← P.rend c
    let vs ← Tree.walkRev b e
    pure (.all vs)

/-- the client program for one operation on two containers -/
def run2 (P : Api V) (c d : Addr) : AssocOp2 Loc Loc → M V (AOut V)
  | .on b op => P.run (if b then d else c) op
  | .copyRange b i j => do
    let src := if b then c else d
    let n ← P.size src
    if i ≤ j ∧ j ≤ n then do
      let p ← P.at_ src i
      let q ← P.at_ src j
      P.insertRange (if b then d else c) p q
      pure .done
    else pure .done
  | .swap => do
    P.swap c d
    pure .done

/-- run a history and collect the observations -/
def runAll2 (P : Api V) (c d : Addr) : List (AssocOp2 Loc Loc) → M V (List (AOut V))
  | [] => pure []
  | o :: os => do
    let r ← P.run2 c d o
    let rs ← runAll2 P c d os
    pure (r :: rs)

/-- the life of two containers: create both, use them, destroy both (nothing is observed if a creation fails) -/
def life (P : Api V) (os : List (AssocOp2 Loc Loc)) : M V (Option (List (AOut V))) := do
  let c ← P.create
  if c = 0 then pure none else do
  let d ← P.create
  if d = 0 then do
    P.destroy c
    pure none
  else do
  let rs ← P.runAll2 c d os
  P.destroy c
  P.destroy d
  pure (some rs)

end Api

namespace Assoc
open CC.Tree
variable {α κ β : Type} {nf : Prop} {E : Env V} {a h b k : Nat} {g : Cfg} {es es' X Y : List (Elem V)} {st st' : List α} {F R : HProp V} {u : Bool}
  {inj : α → V} {injk : κ → V} {key : α → κ} {lt : κ → κ → Bool} {ρ : Loc → Nat → α} {ϰ : Loc → κ}

/-- the functions of c_tree.c, unique or not -/
def treeApi (u : Bool) (E : Env V) (g : Cfg) : Api V :=
  ⟨create g.kt g.vt g.mt g.kov g.cmp, destroy, begin_, end_, rbegin, rend, empty, size, clear,
    if u then insertUniqueValue E else insertEqualValue E, if u then insertUnique E else insertEqual E, if u then insertUniqueRange E else insertEqualRange E,
    if u then insertUniqueFromC E else insertEqualFromC E, erase, eraseKey E, eraseRange, swap, find E, count E, lowerBound E, upperBound E⟩

theorem setApi_eq {kt cmp : Nat} : setApi E kt cmp = treeApi true E ⟨kt, kt, NULL_TYPE, IDENTITY, cmp⟩ := rfl
theorem multisetApi_eq {kt cmp : Nat} : multisetApi E kt cmp = treeApi false E ⟨kt, kt, NULL_TYPE, IDENTITY, cmp⟩ := rfl
theorem mapApi_eq {kt vt cmp : Nat} : mapApi E kt vt cmp = treeApi true E ⟨kt, PAIR, vt, KEY_OF_PAIR, cmp⟩ := rfl
theorem multimapApi_eq {kt vt cmp : Nat} : multimapApi E kt vt cmp = treeApi false E ⟨kt, PAIR, vt, KEY_OF_PAIR, cmp⟩ := rfl

/-- elements `x` are stored as `inj x`, keys `k` as `injk k` -/
structure Std (E : Env V) (g : Cfg) (inj : α → V) (injk : κ → V) (key : α → κ) (lt : κ → κ → Bool) : Prop where
  hw : StrictWeak (klt E g)
  kov : ∀ x, E.kov g.kov (inj x) = injk (key x)
  cmp : ∀ a b, klt E g (injk a) (injk b) = lt a b

/-- the stored elements are the contents -/
def Ab (inj : α → V) (es : List (Elem V)) (st : List α) : Prop := vals es = st.map inj

theorem Ab.length (h : Ab inj es st) : es.length = st.length := by
  have := congrArg List.length h
  simpa [vals] using this

theorem Ab.append {s1 s2 : List α} (h1 : Ab inj X s1) (h2 : Ab inj Y s2) : Ab inj (X ++ Y) (s1 ++ s2) := by
  unfold Ab vals at *
  simp [h1, h2]

theorem Ab.cons {e : Elem V} {x : α} (h1 : e.val = inj x) (h2 : Ab inj es st) : Ab inj (e :: es) (x :: st) := by
  unfold Ab vals at *
  simp [h1, h2]

theorem Ab.take {n : Nat} (h : Ab inj es st) : Ab inj (es.take n) (st.take n) := by
  unfold Ab vals at *
  rw [List.map_take, h, List.map_take]
theorem Ab.drop {n : Nat} (h : Ab inj es st) : Ab inj (es.drop n) (st.drop n) := by
  unfold Ab vals at *
  rw [List.map_drop, h, List.map_drop]

theorem Ab.left (h : Ab inj (X ++ Y) st) : Ab inj X (st.take X.length) := by simpa using h.take (n := X.length)
theorem Ab.right (h : Ab inj (X ++ Y) st) : Ab inj Y (st.drop X.length) := by simpa using h.drop (n := X.length)

theorem Ab.get {i : Nat} (h : Ab inj es st) : es[i]?.map (·.val) = st[i]?.map inj := by
  have := congrArg (fun l => l[i]?) h
  simpa [vals, List.getElem?_map] using this

theorem Ab.head (h : Ab inj es st) : es.head?.map (·.val) = st.head?.map inj := by
  have := h.get (i := 0)
  simpa [List.head?_eq_getElem?] using this

theorem Ab.uncons {e : Elem V} {Y : List (Elem V)} (h : Ab inj (e :: Y) st) : ∃ x s, st = x :: s ∧ e.val = inj x ∧ Ab inj Y s := by
  cases st with
  | nil => simp [Ab, vals] at h
  | cons x s =>
    simp only [Ab, vals, List.map_cons, List.cons.injEq] at h
    exact ⟨x, s, rfl, h.1, h.2⟩

theorem Ab.mem_st {x : α} (h : Ab inj es st) (hx : x ∈ st) : ∃ e ∈ es, e.val = inj x := by
  have : inj x ∈ vals es := by rw [h]; exact List.mem_map_of_mem hx
  simpa [vals] using this
theorem Ab.mem_es {e : Elem V} (h : Ab inj es st) (he : e ∈ es) : ∃ x ∈ st, e.val = inj x := by
  have : e.val ∈ st.map inj := by rw [← h]; exact List.mem_map_of_mem he
  obtain ⟨x, hx, h1⟩ := List.mem_map.1 this
  exact ⟨x, hx, h1.symm⟩

theorem Ab.filter {p : Elem V → Bool} {q : α → Bool} (h : Ab inj es st) (hpq : ∀ e x, e.val = inj x → p e = q x) : Ab inj (es.filter p) (st.filter q) := by
  induction es generalizing st with
  | nil =>
    cases st with
    | nil => rfl
    | cons x s => simp [Ab, vals] at h
  | cons e es ih =>
    obtain ⟨x, s, rfl, h1, h2⟩ := h.uncons
    rw [List.filter_cons, List.filter_cons, hpq e x h1]
    cases q x
    · exact ih h2
    · exact (ih h2).cons h1

theorem Ab.countP {p : Elem V → Bool} {q : α → Bool} (h : Ab inj es st) (hpq : ∀ e x, e.val = inj x → p e = q x) : es.countP p = st.countP q := by
  rw [List.countP_eq_length_filter, List.countP_eq_length_filter]
  exact (h.filter hpq).length

section
variable (S : Std E g inj injk key lt)
include S

theorem Std.ek {e : Elem V} {x : α} (h : e.val = inj x) : ek E g e = injk (key x) := by rw [Tree.ek, h, S.kov]
theorem Std.keq {e : Elem V} {x : α} {c : κ} (h : e.val = inj x) : keq E g (injk c) e = equivB lt c (key x) := by
  simp only [Tree.keq, equivB, S.ek h, S.cmp]

theorem Std.lt_weak : StrictWeak lt := by
  have := S.hw.comap injk
  have he : (fun a b => klt E g (injk a) (injk b)) = lt := by funext x y; exact S.cmp x y
  rwa [he] at this

theorem Std.sorted (hA : Ab inj es st) : KSorted E g es ↔ MultiOk key lt st := by
  unfold KSorted MultiOk Sorted
  have h1 : es.map (Tree.ek E g) = st.map fun x => injk (key x) := by
    have : es.map (Tree.ek E g) = (vals es).map (E.kov g.kov) := by simp only [vals, List.map_map]; rfl
    rw [this, show vals es = st.map inj from hA, List.map_map]
    apply List.map_congr_left
    intro x _
    exact S.kov x
  rw [h1, List.pairwise_map]
  simp only [S.cmp]

end

/-! ### where an iterator is -/

theorem locate_spec {u : Bool} : Triple nf (isTree a h g (X ++ Y) ∗ F) ((treeApi u E g).locate a (firstN Y h))
    (fun r => ⌜r = .pos X.length (Y.head?.map (·.val))⌝ ∗ isTree a h g (X ++ Y) ∗ F) := by
  unfold Api.locate
  dsimp only [treeApi]
  refine with_tree fun t h1 h2 h3 => ?_
  refine begin_cps h3 ?_
  rw [h1]
  unfold iterDistance
  refine distanceLoop_cps (X := []) (W := X) (Y := Y) (by rw [h1]; simp) ?_
  refine end_cps h3 ?_
  cases Y with
  | nil =>
    rw [if_pos (show firstN [] h = h from rfl)]
    apply Triple.ret
    refine ent_pure_right ?_ (sep_mono (shape_tree h1 h2 h3) (ent_refl F))
    simp
  | cons e Y =>
    refine with_facts fun hf => ?_
    rw [CList.firstN_cons, if_neg ?_]
    · refine shape_of_tree h1 h2 h3 ?_
      refine deref_tree fun hb hrd => ?_
      refine ldV_reads hrd ?_
      apply Triple.ret
      refine ent_pure_right ?_ (ent_refl _)
      simp
    · rw [h1] at hf
      exact (hf.ne e (by simp)).1


/-! ### insertion -/

theorem ins_unique (S : Std E g inj injk key lt) (hA : Ab inj es st) (hs : KSorted E g es) {x : α} {r : Nat} (hu : UniqueIns E g (inj x) es r es') :
    ∃ X Y i y st', es' = X ++ Y ∧ r = firstN Y h ∧ InsUnique key lt x st i y st' ∧ Ab inj es' st' ∧ X.length = i ∧ Y.head?.map (·.val) = some (inj y) := by
  rcases hu with ⟨rfl, e, he, hk, rfl⟩ | ⟨hn, e, he, rfl, rfl⟩
  · obtain ⟨X, Y, rfl⟩ := List.append_of_mem he
    obtain ⟨y, s, h1, h2, h3⟩ := hA.right.uncons
    rw [S.kov, S.keq h2] at hk
    refine ⟨X, e :: Y, X.length, y, st, rfl, rfl, Or.inl ⟨rfl, ?_, hk⟩, hA, rfl, by simp [h2]⟩
    have : (st.drop X.length)[0]? = some y := by rw [h1]; rfl
    simpa using this
  · have hsp := insAfter_split S.hw hs (inj x)
    have hA' := hA
    rw [hsp] at hA'
    unfold insAfter
    generalize hX : es.filter (fun z => !klt E g (E.kov g.kov (inj x)) (Tree.ek E g z)) = X at *
    generalize hY : es.filter (fun z => klt E g (E.kov g.kov (inj x)) (Tree.ek E g z)) = Y at *
    have hlen : X.length ≤ st.length := by rw [← hA'.length]; simp
    have hno : ∀ z ∈ st, equivB lt (key x) (key z) = false := fun z hz => by
      obtain ⟨e', h1, h2⟩ := hA.mem_st hz
      have := hn e' h1
      rwa [S.kov, S.keq h2] at this
    refine ⟨X, e :: Y, X.length, x, st.take X.length ++ x :: st.drop X.length, rfl, rfl, Or.inr ⟨hno, rfl, hlen, rfl, ?_, ?_⟩, hA'.left.append (hA'.right.cons he), rfl, by simp [he]⟩
    · intro z hz
      obtain ⟨e', h1, h2⟩ := hA'.left.mem_st hz
      rw [← hX] at h1
      have h3 := (List.mem_filter.1 h1).2
      rw [S.kov, S.ek h2, S.cmp] at h3
      have h4 := hno z (List.mem_of_mem_take hz)
      simp only [equivB] at h4
      revert h3 h4
      cases lt (key x) (key z) <;> cases lt (key z) (key x) <;> simp
    · intro z hz
      obtain ⟨e', h1, h2⟩ := hA'.right.mem_st hz
      rw [← hY] at h1
      have h3 := (List.mem_filter.1 h1).2
      rwa [S.kov, S.ek h2, S.cmp] at h3

theorem ins_multi (S : Std E g inj injk key lt) (hA : Ab inj es st) (hs : KSorted E g es) {x : α} {e : Elem V} (he : e.val = inj x) :
    ∃ X Y i y st', insAfter E g (inj x) es e = X ++ Y ∧ e.node = firstN Y h ∧ InsMulti key lt x st i y st' ∧ Ab inj (X ++ Y) st' ∧ X.length = i ∧ Y.head?.map (·.val) = some (inj y) := by
  have hsp := insAfter_split S.hw hs (inj x)
  have hA' := hA
  rw [hsp] at hA'
  unfold insAfter
  generalize hX : es.filter (fun z => !klt E g (E.kov g.kov (inj x)) (Tree.ek E g z)) = X at *
  generalize hY : es.filter (fun z => klt E g (E.kov g.kov (inj x)) (Tree.ek E g z)) = Y at *
  have hlen : X.length ≤ st.length := by rw [← hA'.length]; simp
  refine ⟨X, e :: Y, X.length, x, st.take X.length ++ x :: st.drop X.length, rfl, rfl, ⟨rfl, hlen, rfl, ?_, ?_⟩, hA'.left.append (hA'.right.cons he), rfl, by simp [he]⟩
  · intro z hz
    obtain ⟨e', h1, h2⟩ := hA'.left.mem_st hz
    rw [← hX] at h1
    have h3 := (List.mem_filter.1 h1).2
    rw [S.kov, S.ek h2, S.cmp] at h3
    simpa using h3
  · intro z hz
    obtain ⟨e', h1, h2⟩ := hA'.right.mem_st hz
    rw [← hY] at h1
    have h3 := (List.mem_filter.1 h1).2
    rwa [S.kov, S.ek h2, S.cmp] at h3

theorem fits_at (S : Std E g inj injk key lt) {i : Nat} {x : α} (hA : Ab inj es st) : fits E g (inj x) (es.take i) (es.drop i) = true ↔ FitsAt key lt x st i := by
  rw [fits_iff]
  constructor
  · rintro ⟨h1, h2⟩
    refine ⟨fun z hz => ?_, fun z hz => ?_⟩
    · obtain ⟨e, he, hv⟩ := hA.take.mem_st hz
      have := h1 e he
      rwa [S.kov, S.ek hv, S.cmp] at this
    · obtain ⟨e, he, hv⟩ := hA.drop.mem_st hz
      have := h2 e he
      rwa [S.kov, S.ek hv, S.cmp] at this
  · rintro ⟨h1, h2⟩
    refine ⟨fun e he => ?_, fun e he => ?_⟩
    · obtain ⟨z, hz, hv⟩ := hA.take.mem_es he
      rw [S.kov, S.ek hv, S.cmp]
      exact h1 z hz
    · obtain ⟨z, hz, hv⟩ := hA.drop.mem_es he
      rw [S.kov, S.ek hv, S.cmp]
      exact h2 z hz

theorem ins_hint (S : Std E g inj injk key lt) (hA : Ab inj es st) (hs : KSorted E g es) {x : α} {e : Elem V} {i : Nat} (hi : i ≤ es.length) (he : e.val = inj x) :
    ∃ X Y j y st', hintIns E g (inj x) (es.take i) (es.drop i) e = X ++ Y ∧ e.node = firstN Y h ∧ InsHint key lt i x st j y st' ∧ Ab inj (X ++ Y) st' ∧ X.length = j ∧
      Y.head?.map (·.val) = some (inj y) := by
  by_cases hf : fits E g (inj x) (es.take i) (es.drop i) = true
  · simp only [hintIns, hf, ↓reduceIte]
    refine ⟨es.take i, e :: es.drop i, i, x, st.take i ++ x :: st.drop i, rfl, rfl, Or.inl ⟨(fits_at S hA).1 hf, rfl, rfl, rfl⟩, hA.take.append (hA.drop.cons he), by simp [hi], by simp [he]⟩
  · simp only [hintIns, hf, List.take_append_drop]
    obtain ⟨X, Y, j, y, st', h1, h2, h3, h4, h5, h6⟩ := ins_multi (h := h) S hA hs he
    exact ⟨X, Y, j, y, st', h1, h2, Or.inr ⟨fun hc => hf ((fits_at S hA).2 hc), h3⟩, h4, h5, h6⟩

theorem ins_all_unique (S : Std E g inj injk key lt) {xs : List α} (hA : Ab inj es st) (hs : KSorted E g es)
    (hu : Steps (fun v x y => ∃ r, UniqueIns E g v x r y) (xs.map inj) es es') : ∃ st', InsAll key lt true xs st st' ∧ Ab inj es' st' := by
  induction xs generalizing es st with
  | nil => cases hu; exact ⟨st, rfl, hA⟩
  | cons x xs ih =>
    obtain ⟨es1, ⟨r, h1⟩, h2⟩ := hu
    obtain ⟨X, Y, i, y, st1, _, _, h3, h4, _⟩ := ins_unique (h := 0) S hA hs h1
    obtain ⟨st', h5, h6⟩ := ih h4 (h1.sorted S.hw hs) h2
    exact ⟨st', ⟨i, y, st1, h3, h5⟩, h6⟩

theorem ins_all_multi (S : Std E g inj injk key lt) {xs : List α} (hA : Ab inj es st) (hs : KSorted E g es)
    (hu : Steps (fun v x y => ∃ e, e.val = v ∧ y = insAfter E g v x e) (xs.map inj) es es') : ∃ st', InsAll key lt false xs st st' ∧ Ab inj es' st' := by
  induction xs generalizing es st with
  | nil => cases hu; exact ⟨st, rfl, hA⟩
  | cons x xs ih =>
    obtain ⟨es1, ⟨e, h0, rfl⟩, h2⟩ := hu
    obtain ⟨X, Y, i, y, st1, h1, _, h3, h4, _⟩ := ins_multi (h := 0) S hA hs h0
    rw [← h1] at h4
    obtain ⟨st', h5, h6⟩ := ih h4 (insAfter_sorted S.hw hs h0) h2
    exact ⟨st', ⟨i, y, st1, h3, h5⟩, h6⟩

/-! ### the contents stay in order -/

theorem multiOk_insert (hw : StrictWeak lt) {x : α} {s1 s2 : List α} (h : MultiOk key lt (s1 ++ s2)) (h1 : ∀ z ∈ s1, lt (key x) (key z) = false) (h2 : ∀ z ∈ s2, lt (key z) (key x) = false) :
    MultiOk key lt (s1 ++ x :: s2) := by
  unfold MultiOk at *
  rw [List.pairwise_append] at h ⊢
  refine ⟨h.1, List.pairwise_cons.2 ⟨h2, h.2.1⟩, fun a ha b hb => ?_⟩
  rcases List.mem_cons.1 hb with rfl | hb
  · exact h1 a ha
  · exact h.2.2 a ha b hb

theorem Ins.multiOk (hw : StrictWeak lt) {x y : α} {i : Nat} (h : MultiOk key lt st) (hi : Ins key lt u x st i y st') : MultiOk key lt st' := by
  cases u with
  | true =>
    rcases hi with ⟨rfl, _⟩ | ⟨_, _, _, rfl, h1, h2⟩
    · exact h
    · exact multiOk_insert hw (by rwa [List.take_append_drop]) (fun z hz => hw.asymm (h1 z hz)) (fun z hz => hw.asymm (h2 z hz))
  | false =>
    obtain ⟨_, _, rfl, h1, h2⟩ := hi
    exact multiOk_insert hw (by rwa [List.take_append_drop]) h1 (fun z hz => hw.asymm (h2 z hz))

theorem InsAll.multiOk (hw : StrictWeak lt) {xs : List α} (h : MultiOk key lt st) (hi : InsAll key lt u xs st st') : MultiOk key lt st' := by
  induction xs generalizing st with
  | nil => cases hi; exact h
  | cons x xs ih =>
    obtain ⟨i, y, st1, h1, h2⟩ := hi
    exact ih (Ins.multiOk hw h h1) h2

theorem take_drop_sublist {i j : Nat} (hij : i ≤ j) : (st.take i ++ st.drop j).Sublist st := by
  conv => rhs; rw [← List.take_append_drop i st]
  refine List.Sublist.append (List.Sublist.refl _) ?_
  rw [show j = i + (j - i) by omega, ← List.drop_drop]
  exact List.drop_sublist _ _

theorem AssocStep.multiOk {A K : Type} {ρ : A → Nat → α} {ϰ : K → κ} {op : AssocOp A K} {out : AOut α} (hw : StrictWeak lt) (h : MultiOk key lt st)
    (hs : AssocStep key lt u ρ ϰ op st out st') : MultiOk key lt st' := by
  cases op with
  | insert x => obtain ⟨i, y, _, h1⟩ := hs; exact Ins.multiOk hw h h1
  | insertHint j x =>
    obtain ⟨i, y, _, h1⟩ := hs
    cases u with
    | true => exact Ins.multiOk (u := true) hw h h1
    | false =>
      rcases h1 with ⟨h2, _, _, rfl⟩ | ⟨_, h2⟩
      · exact multiOk_insert hw (by rwa [List.take_append_drop]) h2.1 h2.2
      · exact Ins.multiOk (u := false) hw h h2
  | insertFrom x n => exact InsAll.multiOk hw h hs.2
  | erase i =>
    simp only [AssocStep] at hs
    split at hs
    · rw [hs.2]; exact List.Pairwise.sublist (List.eraseIdx_sublist _ _) h
    · rw [hs.2]; exact h
  | eraseRange i j =>
    simp only [AssocStep] at hs
    obtain ⟨_, hs⟩ := hs
    rw [hs]
    split
    · exact List.Pairwise.sublist (take_drop_sublist (by omega)) h
    · exact h
  | eraseKey k => rw [hs.2]; exact List.Pairwise.sublist List.filter_sublist h
  | clear => rw [hs.2]; exact List.Pairwise.nil
  | find k => rw [hs.1]; exact h
  | count k => rw [hs.2]; exact h
  | lower k => rw [hs.1]; exact h
  | upper k => rw [hs.1]; exact h
  | size => rw [hs.2]; exact h
  | empty => rw [hs.2]; exact h
  | contents => rw [hs.2]; exact h
  | contentsRev => rw [hs.2]; exact h

/-! ### one operation -/

/-- The arguments of an operation are live objects of the client. -/
def OpArgs (inj : α → V) (injk : κ → V) (ρ : Loc → Nat → α) (ϰ : Loc → κ) (R : HProp V) : AssocOp Loc Loc → Prop
  | .insert l | .insertHint _ l => l.1 ≠ 0 ∧ Reads R l (inj (ρ l 0))
  | .insertFrom l n => l.1 ≠ 0 ∧ ∃ R', R = (arr l.1 l.2 (((List.range n).map (ρ l)).map fun x => .obj (some (inj x))) ∗ R')
  | .eraseKey k | .find k | .count k | .lower k | .upper k => k.1 ≠ 0 ∧ Reads R k (injk (ϰ k))
  | _ => True

theorem at_spec {i : Nat} {Q : β → HProp V} {K : Nat → M V β} (hi : i ≤ es.length) (hk : Triple nf (isTree a h g es ∗ F) (K (firstN (es.drop i) h)) Q) :
    Triple nf (isTree a h g es ∗ F) ((treeApi u E g).at_ a i >>= K) Q := iterAt_spec hi hk

theorem locate_post (hA : Ab inj (X ++ Y) st) : Triple nf (isTree a h g (X ++ Y) ∗ F) ((treeApi u E g).locate a (firstN Y h))
    (fun r => ⌜r = (AOut.pos X.length st[X.length]?).map inj⌝ ∗ isTree a h g (X ++ Y) ∗ F) := by
  refine Triple.post locate_spec fun r => ?_
  refine ent_pure_left fun hr => ?_
  refine ent_pure_right ?_ (ent_refl _)
  rw [hr, AOut.map]
  congr 1
  have := hA.right.head
  rw [this]
  simp [List.head?_drop]

section
variable (S : Std E g inj injk key lt)

/-- how the operations end -/
theorem finish {op : AssocOp Loc Loc} {out : AOut α} (hA : Ab inj es' st') (hst : AssocStep key lt u ρ ϰ op st out st') :
    Triple nf (isTree a h g es' ∗ F) (pure (out.map inj)) (fun r => ∃ₛ out es' st', ⌜r = AOut.map inj out ∧ AssocStep key lt u ρ ϰ op st out st' ∧ Ab inj es' st'⌝ ∗ isTree a h g es' ∗ F) := by
  apply Triple.ret
  apply ent_ex_right out
  apply ent_ex_right es'
  apply ent_ex_right st'
  exact ent_pure_right ⟨rfl, hst, hA⟩ (ent_refl _)

theorem finishL {op : AssocOp Loc Loc} {o : Option α} (hA : Ab inj (X ++ Y) st') (ho : Y.head?.map (·.val) = o.map inj) (hst : AssocStep key lt u ρ ϰ op st (.pos X.length o) st') :
    Triple nf (isTree a h g (X ++ Y) ∗ F) ((treeApi u E g).locate a (firstN Y h))
      (fun r => ∃ₛ out es' st', ⌜r = AOut.map inj out ∧ AssocStep key lt u ρ ϰ op st out st' ∧ Ab inj es' st'⌝ ∗ isTree a h g es' ∗ F) := by
  refine Triple.post locate_spec fun r => ?_
  refine ent_pure_left fun hr => ?_
  apply ent_ex_right (AOut.pos X.length o)
  apply ent_ex_right (X ++ Y)
  apply ent_ex_right st'
  exact ent_pure_right ⟨by rw [hr, ho]; rfl, hst, hA⟩ (ent_refl _)

theorem op_spec {op : AssocOp Loc Loc} (hop : OpArgs inj injk ρ ϰ F op) (hA : Ab inj es st) (hok : MultiOk key lt st) (S : Std E g inj injk key lt) :
    Triple True (isTree a h g es ∗ F) ((treeApi u E g).run a op)
      (fun r => ∃ₛ out es' st', ⌜r = AOut.map inj out ∧ AssocStep key lt u ρ ϰ op st out st' ∧ Ab inj es' st'⌝ ∗ isTree a h g es' ∗ F) := by
  have hs := (S.sorted hA).2 hok
  have hw := S.hw
  cases op with
  | insert l =>
    unfold Api.run
    cases u with
    | true =>
      show Triple True _ (insertUniqueValue E a l >>= _) _
      refine Triple.bind (insertUniqueValue_spec hw hs hop.1 hop.2.right) fun r => ?_
      refine Triple.ex_left fun es1 => ?_
      apply Triple.pure_left
      intro hu
      obtain ⟨X, Y, i, y, st', rfl, rfl, h3, h4, rfl, h6⟩ := ins_unique (h := h) S hA hs hu
      exact finishL (o := some y) h4 h6 ⟨X.length, y, rfl, h3⟩
    | false =>
      show Triple True _ (insertEqualValue E a l >>= _) _
      refine Triple.bind (insertEqualValue_spec hw hs hop.1 hop.2.right) fun r => ?_
      refine Triple.ex_left fun e => ?_
      apply Triple.pure_left
      rintro ⟨rfl, he⟩
      obtain ⟨X, Y, i, y, st', h1, h2, h3, h4, rfl, h6⟩ := ins_multi (h := h) S hA hs he
      rw [h1, h2]
      exact finishL (o := some y) h4 h6 ⟨X.length, y, rfl, h3⟩
  | insertHint j l =>
    unfold Api.run
    show Triple True _ (size a >>= _) _
    refine with_tree fun t h1 h2 h3 => ?_
    refine size_cps ?_
    rw [h1]
    refine shape_of_tree h1 h2 h3 ?_
    have hi : min j es.length ≤ es.length := Nat.min_le_right _ _
    refine at_spec hi ?_
    have he : es.take (min j es.length) ++ es.drop (min j es.length) = es := List.take_append_drop _ es
    cases u with
    | true =>
      show Triple True _ (insertUnique E a _ l >>= _) _
      have := insertUnique_spec (E := E) (a := a) (h := h) (g := g) (F := F) (X := es.take (min j es.length)) (Y := es.drop (min j es.length)) (v := inj (ρ l 0)) hw (he.symm ▸ hs) hop.1 (he.symm ▸ hop.2.right)
      rw [he] at this
      refine Triple.bind this fun r => ?_
      refine Triple.ex_left fun es1 => ?_
      apply Triple.pure_left
      intro hu
      obtain ⟨X, Y, i, y, st', rfl, rfl, h3, h4, rfl, h6⟩ := ins_unique (h := h) S hA hs hu
      exact finishL (o := some y) h4 h6 ⟨X.length, y, rfl, h3⟩
    | false =>
      show Triple True _ (insertEqual E a _ l >>= _) _
      have := insertEqual_spec (E := E) (a := a) (h := h) (g := g) (F := F) (X := es.take (min j es.length)) (Y := es.drop (min j es.length)) (v := inj (ρ l 0)) hw (he.symm ▸ hs) hop.1 (he.symm ▸ hop.2.right)
      rw [he] at this
      refine Triple.bind this fun r => ?_
      refine Triple.ex_left fun e => ?_
      apply Triple.pure_left
      rintro ⟨rfl, he⟩
      obtain ⟨X, Y, i, y, st', h1, h2, h3, h4, rfl, h6⟩ := ins_hint (h := h) S hA hs hi he
      rw [h1, h2]
      rw [hA.length] at h3
      exact finishL (o := some y) h4 h6 ⟨X.length, y, rfl, h3⟩
  | insertFrom l n =>
    obtain ⟨hl, R', rfl⟩ := hop
    have hmap : (((List.range n).map (ρ l)).map fun x => Val.obj (some (inj x))) = ((((List.range n).map (ρ l)).map inj).map fun v => Val.obj (some v)) := by
      simp only [List.map_map]; rfl
    have hlen : (((List.range n).map (ρ l)).map inj).length = n := by simp
    unfold Api.run
    refine Triple.fact (p := a ≠ 0) (fun m hm => ?_) fun ha => ?_
    · unfold isTree at hm
      rw [hex_sep] at hm
      obtain ⟨t, hm⟩ := hm
      rw [sep_assoc, hpure_sep_apply] at hm
      exact (shape_facts hm.2).a0
    rw [hmap]
    cases u with
    | true =>
      show Triple True _ (insertUniqueFromC E a l _ >>= _) _
      unfold insertUniqueFromC
      rw [if_neg (by simp [ha, hl])]
      have := insertUniqueFrom_spec (E := E) (a := a) (h := h) (g := g) (F := R') (b := l.1) (i := l.2) (vs := ((List.range n).map (ρ l)).map inj) hw hs hl
      rw [hlen] at this
      refine Triple.bind this fun _ => ?_
      refine Triple.ex_left fun es1 => ?_
      apply Triple.pure_left
      intro hu
      obtain ⟨st', h1, h2⟩ := ins_all_unique S hA hs hu
      exact finish (out := .done) h2 ⟨rfl, h1⟩
    | false =>
      show Triple True _ (insertEqualFromC E a l _ >>= _) _
      unfold insertEqualFromC
      rw [if_neg (by simp [ha, hl])]
      have := insertEqualFrom_spec (E := E) (a := a) (h := h) (g := g) (F := R') (b := l.1) (i := l.2) (vs := ((List.range n).map (ρ l)).map inj) hw hs hl
      rw [hlen] at this
      refine Triple.bind this fun _ => ?_
      refine Triple.ex_left fun es1 => ?_
      apply Triple.pure_left
      intro hu
      obtain ⟨st', h1, h2⟩ := ins_all_multi S hA hs hu
      exact finish (out := .done) h2 ⟨rfl, h1⟩
  | erase i =>
    unfold Api.run
    show Triple True _ (size a >>= _) _
    refine with_tree fun t h1 h2 h3 => ?_
    refine size_cps ?_
    rw [h1]
    refine shape_of_tree h1 h2 h3 ?_
    by_cases hi : i < es.length
    · rw [if_pos hi]
      refine at_spec (Nat.le_of_lt hi) ?_
      obtain ⟨X, e, Y, rfl, rfl⟩ : ∃ X e Y, es = X ++ e :: Y ∧ X.length = i :=
        ⟨es.take i, es[i], es.drop (i+1), by simp, by simp; omega⟩
      rw [List.drop_left, CList.firstN_cons]
      show Triple True _ (erase a e.node >>= _) _
      refine Triple.bind erase_spec fun r => ?_
      apply Triple.pure_left
      rintro rfl
      have h4 := hA.left
      obtain ⟨x, s, h5, h6, h7⟩ := hA.right.uncons
      have hst : st = st.take X.length ++ x :: s := by rw [← h5, List.take_append_drop]
      have hl : (st.take X.length).length = X.length := h4.length.symm
      have hi' : X.length < st.length := by rw [← hA.length]; exact hi
      refine finishL (o := st[X.length+1]?) (h4.append h7) ?_ ?_
      · rw [h7.head]
        congr 1
        have : s = st.drop (X.length + 1) := by rw [← List.drop_drop, h5]; rfl
        rw [this, List.head?_drop]
      · show if X.length < st.length then _ else _
        rw [if_pos hi']
        refine ⟨rfl, ?_⟩
        conv => rhs; rw [hst]
        rw [List.eraseIdx_append_of_length_le (by omega), hl]
        simp
    · rw [if_neg hi]
      refine finish (out := .done) hA ?_
      show if _ then _ else _
      rw [if_neg (by rw [← hA.length]; exact hi)]
      exact ⟨rfl, rfl⟩
  | eraseRange i j =>
    unfold Api.run
    show Triple True _ (size a >>= _) _
    refine with_tree fun t h1 h2 h3 => ?_
    refine size_cps ?_
    rw [h1]
    refine shape_of_tree h1 h2 h3 ?_
    by_cases hij : i ≤ j ∧ j ≤ es.length
    · rw [if_pos hij]
      refine at_spec (Nat.le_trans hij.1 hij.2) ?_
      refine at_spec hij.2 ?_
      have cut : (es.drop i).take (j - i) ++ es.drop j = es.drop i := by
        rw [show es.drop j = (es.drop i).drop (j - i) by rw [List.drop_drop]; congr 1; omega, List.take_append_drop]
      have he := eraseRange_spec (nf := True) (a := a) (h := h) (g := g) (F := F) (X := es.take i) (W := (es.drop i).take (j - i)) (Y := es.drop j)
      rw [List.append_assoc, cut, List.take_append_drop] at he
      show Triple True _ (eraseRange a _ _ >>= _) _
      refine Triple.bind he fun _ => ?_
      refine finish (out := .done) (hA.take.append hA.drop) ⟨rfl, ?_⟩
      rw [if_pos (by rw [← hA.length]; exact hij)]
    · rw [if_neg hij]
      refine finish (out := .done) hA ⟨rfl, ?_⟩
      rw [if_neg (by rw [← hA.length]; exact hij)]
  | eraseKey k =>
    unfold Api.run
    show Triple True _ (eraseKey E a k >>= _) _
    refine Triple.bind (eraseKey_spec hw hs hop.1 hop.2.right) fun r => ?_
    apply Triple.pure_left
    rintro rfl
    have hc := hA.countP (p := Tree.keq E g (injk (ϰ k))) (q := fun x => equivB lt (ϰ k) (key x)) fun e x hx => S.keq hx
    rw [hc]
    refine finish (out := .num _) (hA.filter fun e x hx => ?_) ⟨rfl, rfl⟩
    rw [S.keq hx]
  | clear =>
    unfold Api.run
    show Triple True _ (clear a >>= _) _
    refine Triple.bind clear_spec fun _ => ?_
    exact finish (out := .done) (st' := []) rfl ⟨rfl, rfl⟩
  | find k =>
    unfold Api.run
    show Triple True _ (find E a k >>= _) _
    refine with_tree fun t h1 h2 h3 => ?_
    have hrd := reads_shape (a := a) (h := h) h1 h2 h3 hop.2.right
    refine find_cps hw (by rw [h1]; exact hs) h3 hop.1 hrd (fun e he hk => ?_) fun hn => ?_
    · refine shape_of_tree h1 h2 h3 ?_
      rw [h1] at he
      obtain ⟨X, Y, rfl⟩ := List.append_of_mem he
      obtain ⟨x, s, h5, h6, h7⟩ := hA.right.uncons
      refine finishL (o := some x) hA (by simp [h6]) ⟨rfl, Or.inl ⟨X.length, x, rfl, ?_, ?_⟩⟩
      · have : (st.drop X.length)[0]? = some x := by rw [h5]; rfl
        simpa using this
      · rwa [S.keq h6] at hk
    · refine shape_of_tree h1 h2 h3 ?_
      rw [h1] at hn
      have := finishL (nf := True) (a := a) (h := h) (g := g) (F := F) (E := E) (u := u) (X := es) (Y := []) (op := .find k) (ρ := ρ) (ϰ := ϰ) (key := key) (lt := lt) (st := st) (st' := st) (inj := inj) (o := none)
        (by rw [List.append_nil]; exact hA) rfl ⟨rfl, Or.inr ⟨by rw [hA.length], fun x hx => ?_⟩⟩
      · rwa [List.append_nil] at this
      · obtain ⟨e, he, hv⟩ := hA.mem_st hx
        have := hn e he
        rwa [S.keq hv] at this
  | count k =>
    unfold Api.run
    show Triple True _ (count E a k >>= _) _
    refine with_tree fun t h1 h2 h3 => ?_
    have hrd := reads_shape (a := a) (h := h) h1 h2 h3 hop.2.right
    refine count_cps hw (by rw [h1]; exact hs) hop.1 hrd ?_
    refine shape_of_tree h1 h2 h3 ?_
    rw [h1]
    have hc := hA.countP (p := Tree.keq E g (injk (ϰ k))) (q := fun x => equivB lt (ϰ k) (key x)) fun e x hx => S.keq hx
    rw [hc]
    exact finish (out := .num _) hA ⟨rfl, rfl⟩
  | lower k =>
    unfold Api.run
    show Triple True _ (lowerBound E a k >>= _) _
    refine with_tree fun t h1 h2 h3 => ?_
    have hrd := reads_shape (a := a) (h := h) h1 h2 h3 hop.2.right
    refine lowerBound_cps hw (by rw [h1]; exact hs) h3 hop.1 hrd ?_
    refine shape_of_tree h1 h2 h3 ?_
    rw [h1]
    have hsp := (hs.lower (v := injk (ϰ k)) hw).split
    have hA' := hA
    rw [hsp] at hA'
    generalize hX : es.filter (fun e => klt E g (Tree.ek E g e) (injk (ϰ k))) = X at *
    generalize hY : es.filter (fun e => !klt E g (Tree.ek E g e) (injk (ϰ k))) = Y at *
    rw [hsp]
    refine finishL (o := st[X.length]?) hA' (by rw [hA'.right.head, List.head?_drop]) ⟨rfl, X.length, ?_, rfl, fun x hx => ?_, fun x hx => ?_⟩
    · rw [← hA'.length]; simp
    · obtain ⟨e, he, hv⟩ := hA'.left.mem_st hx
      rw [← hX] at he
      have := (List.mem_filter.1 he).2
      rwa [S.ek hv, S.cmp] at this
    · obtain ⟨e, he, hv⟩ := hA'.right.mem_st hx
      rw [← hY] at he
      have := (List.mem_filter.1 he).2
      rw [S.ek hv, S.cmp] at this
      simpa using this
  | upper k =>
    unfold Api.run
    show Triple True _ (upperBound E a k >>= _) _
    refine with_tree fun t h1 h2 h3 => ?_
    have hrd := reads_shape (a := a) (h := h) h1 h2 h3 hop.2.right
    refine upperBound_cps hw (by rw [h1]; exact hs) h3 hop.1 hrd ?_
    refine shape_of_tree h1 h2 h3 ?_
    rw [h1]
    have hsp := (hs.upper (v := injk (ϰ k)) hw).split
    simp only [Bool.not_not] at hsp
    have hA' := hA
    rw [hsp] at hA'
    generalize hX : es.filter (fun e => !klt E g (injk (ϰ k)) (Tree.ek E g e)) = X at *
    generalize hY : es.filter (fun e => klt E g (injk (ϰ k)) (Tree.ek E g e)) = Y at *
    rw [hsp]
    refine finishL (o := st[X.length]?) hA' (by rw [hA'.right.head, List.head?_drop]) ⟨rfl, X.length, ?_, rfl, fun x hx => ?_, fun x hx => ?_⟩
    · rw [← hA'.length]; simp
    · obtain ⟨e, he, hv⟩ := hA'.left.mem_st hx
      rw [← hX] at he
      have := (List.mem_filter.1 he).2
      rw [S.ek hv, S.cmp] at this
      simpa using this
    · obtain ⟨e, he, hv⟩ := hA'.right.mem_st hx
      rw [← hY] at he
      have := (List.mem_filter.1 he).2
      rwa [S.ek hv, S.cmp] at this
  | size =>
    unfold Api.run
    show Triple True _ (size a >>= _) _
    refine with_tree fun t h1 h2 h3 => ?_
    refine size_cps ?_
    refine shape_of_tree h1 h2 h3 ?_
    rw [h1, hA.length]
    exact finish (out := .num _) hA ⟨rfl, rfl⟩
  | empty =>
    unfold Api.run
    show Triple True _ (empty a >>= _) _
    refine with_tree fun t h1 h2 h3 => ?_
    refine empty_cps ?_
    refine shape_of_tree h1 h2 h3 ?_
    have : es.isEmpty = st.isEmpty := by
      have := hA.length
      cases es <;> cases st <;> simp_all
    rw [h1, this]
    exact finish (out := .flag _) hA ⟨rfl, rfl⟩
  | contents =>
    unfold Api.run
    show Triple True _ (begin_ a >>= _) _
    refine with_tree fun t h1 h2 h3 => ?_
    refine begin_cps h3 ?_
    show Triple True _ (end_ a >>= _) _
    refine end_cps h3 ?_
    have hl : t.toList = [] ++ es ++ [] := by simp [h1]
    have := walkFwd_cps (nf := True) (a := a) (h := h) (g := g) (F := F) (X := []) (W := es) (Y := []) (K := fun vs => (pure (.all vs) : M V (AOut V)))
      (Q := fun r => ∃ₛ out es' st', ⌜r = AOut.map inj out ∧ AssocStep key lt u ρ ϰ .contents st out st' ∧ Ab inj es' st'⌝ ∗ isTree a h g es' ∗ F) hl ?_
    · rw [List.append_nil, ← h1] at this
      exact this
    · refine shape_of_tree h1 h2 h3 ?_
      rw [show vals es = st.map inj from hA]
      exact finish (out := .all _) hA ⟨rfl, rfl⟩
  | contentsRev =>
    unfold Api.run
    show Triple True _ (end_ a >>= _) _
    refine with_tree fun t h1 h2 h3 => ?_
    refine end_cps h3 ?_
    show Triple True _ (begin_ a >>= _) _
    refine begin_cps h3 ?_
    have hl : t.toList = [] ++ es ++ [] := by simp [h1]
    have := walkRev_cps (nf := True) (a := a) (h := h) (g := g) (F := F) (X := []) (W := es) (Y := []) (K := fun vs => (pure (.all vs) : M V (AOut V)))
      (Q := fun r => ∃ₛ out es' st', ⌜r = AOut.map inj out ∧ AssocStep key lt u ρ ϰ .contentsRev st out st' ∧ Ab inj es' st'⌝ ∗ isTree a h g es' ∗ F) hl h2 ?_
    · rw [List.append_nil, ← h1] at this
      exact this
    · refine shape_of_tree h1 h2 h3 ?_
      rw [show vals es = st.map inj from hA, ← List.map_reverse]
      exact finish (out := .all _) hA ⟨rfl, rfl⟩

end

/-! ### two containers -/

theorem OpArgs.frame {op : AssocOp Loc Loc} {P : HProp V} (h : OpArgs inj injk ρ ϰ R op) : OpArgs inj injk ρ ϰ (P ∗ R) op := by
  cases op with
  | insertFrom l n =>
    obtain ⟨h1, R', rfl⟩ := h
    exact ⟨h1, P ∗ R', by rw [sep_left_comm]⟩
  | insert l => exact ⟨h.1, h.2.right⟩
  | insertHint i l => exact ⟨h.1, h.2.right⟩
  | eraseKey k => exact ⟨h.1, h.2.right⟩
  | find k => exact ⟨h.1, h.2.right⟩
  | count k => exact ⟨h.1, h.2.right⟩
  | lower k => exact ⟨h.1, h.2.right⟩
  | upper k => exact ⟨h.1, h.2.right⟩
  | _ => trivial

def OpArgs2 (inj : α → V) (injk : κ → V) (ρ : Loc → Nat → α) (ϰ : Loc → κ) (R : HProp V) : AssocOp2 Loc Loc → Prop
  | .on _ op => OpArgs inj injk ρ ϰ R op
  | _ => True

/-- the two containers `c` and `d` hold the contents `p` -/
def Two (inj : α → V) (g : Cfg) (c d : Addr) (p : List α × List α) : HProp V :=
  ∃ₛ h k es es', ⌜Ab inj es p.1 ∧ Ab inj es' p.2⌝ ∗ isTree c h g es ∗ isTree d k g es'

/-- both contents are in order -/
def TwoOk (key : α → κ) (lt : κ → κ → Bool) (p : List α × List α) : Prop := MultiOk key lt p.1 ∧ MultiOk key lt p.2

theorem two_intro {c d h k : Addr} {p : List α × List α} (h1 : Ab inj es p.1) (h2 : Ab inj es' p.2) :
    (isTree c h g es ∗ isTree d k g es' ∗ R) ⊢ₛ (Two inj g c d p ∗ R) := by
  unfold Two
  rw [hex_sep]; apply ent_ex_right h
  rw [hex_sep]; apply ent_ex_right k
  rw [hex_sep]; apply ent_ex_right es
  rw [hex_sep]; apply ent_ex_right es'
  rw [sep_assoc, sep_assoc]
  exact ent_pure_right ⟨h1, h2⟩ (ent_refl _)

theorem two_elim {c d : Addr} {p : List α × List α} {m : M V β} {Q : β → HProp V}
    (hk : ∀ h k es es', Ab inj es p.1 → Ab inj es' p.2 → Triple nf (isTree c h g es ∗ isTree d k g es' ∗ R) m Q) : Triple nf (Two inj g c d p ∗ R) m Q := by
  unfold Two
  rw [hex_sep]; refine Triple.ex_left fun h => ?_
  rw [hex_sep]; refine Triple.ex_left fun k => ?_
  rw [hex_sep]; refine Triple.ex_left fun es => ?_
  rw [hex_sep]; refine Triple.ex_left fun es' => ?_
  rw [sep_assoc, sep_assoc]
  apply Triple.pure_left
  rintro ⟨h1, h2⟩
  exact hk h k es es' h1 h2

theorem copy_spec {c d h k : Addr} {s1 s2 : List α} {i j : Nat} (S : Std E g inj injk key lt) (hA : Ab inj es s1) (hA' : Ab inj es' s2) (hok : MultiOk key lt s1) {Q : AOut V → HProp V}
    (hk : ∀ es1 s1', (if i ≤ j ∧ j ≤ s2.length then InsAll key lt u ((s2.take j).drop i) s1 s1' else s1' = s1) → Ab inj es1 s1' →
      Triple True (isTree c h g es1 ∗ isTree d k g es' ∗ R) (pure .done) Q) :
    Triple True (isTree c h g es ∗ isTree d k g es' ∗ R) (do
      let n ← (treeApi u E g).size d
      if i ≤ j ∧ j ≤ n then do
        let p ← (treeApi u E g).at_ d i
        let q ← (treeApi u E g).at_ d j
        (treeApi u E g).insertRange c p q
        pure .done
      else pure .done) Q := by
  have hs := (S.sorted hA).2 hok
  rw [sep_left_comm]
  show Triple True _ (size d >>= _) _
  refine with_tree fun t h1 h2 h3 => ?_
  refine size_cps ?_
  refine shape_of_tree h1 h2 h3 ?_
  rw [h1]
  by_cases hij : i ≤ j ∧ j ≤ es'.length
  · have hij' : i ≤ j ∧ j ≤ s2.length := by rw [← hA'.length]; exact hij
    rw [if_pos hij]
    refine at_spec (Nat.le_trans hij.1 hij.2) ?_
    refine at_spec hij.2 ?_
    have cut : (es'.drop i).take (j - i) ++ es'.drop j = es'.drop i := by
      rw [show es'.drop j = (es'.drop i).drop (j - i) by rw [List.drop_drop]; congr 1; omega, List.take_append_drop]
    have hcut : (s2.take j).drop i = (s2.drop i).take (j - i) := by rw [List.drop_take]
    have hvals : vals ((es'.drop i).take (j - i)) = ((s2.take j).drop i).map inj := by
      rw [hcut]
      exact hA'.drop.take
    rw [sep_left_comm]
    cases u with
    | true =>
      have he := insertUniqueRange_spec (E := E) (a := c) (h := h) (g := g) (es := es) (b := d) (k := k) (g' := g) (F := R) (X := es'.take i) (W := (es'.drop i).take (j - i)) (Y := es'.drop j) S.hw hs
      rw [List.append_assoc, cut, List.take_append_drop, hvals] at he
      show Triple True _ (insertUniqueRange E c _ _ >>= _) _
      refine Triple.bind he fun _ => ?_
      refine Triple.ex_left fun es1 => ?_
      apply Triple.pure_left
      intro hu
      obtain ⟨st', h4, h5⟩ := ins_all_unique S hA hs hu
      refine hk es1 st' ?_ h5
      rw [if_pos hij']
      exact h4
    | false =>
      have he := insertEqualRange_spec (E := E) (a := c) (h := h) (g := g) (es := es) (b := d) (k := k) (g' := g) (F := R) (X := es'.take i) (W := (es'.drop i).take (j - i)) (Y := es'.drop j) S.hw hs
      rw [List.append_assoc, cut, List.take_append_drop, hvals] at he
      show Triple True _ (insertEqualRange E c _ _ >>= _) _
      refine Triple.bind he fun _ => ?_
      refine Triple.ex_left fun es1 => ?_
      apply Triple.pure_left
      intro hu
      obtain ⟨st', h4, h5⟩ := ins_all_multi S hA hs hu
      refine hk es1 st' ?_ h5
      rw [if_pos hij']
      exact h4
  · rw [if_neg hij, sep_left_comm]
    refine hk es s1 ?_ hA
    rw [if_neg (by rw [← hA'.length]; exact hij)]

theorem op2_spec {c d : Addr} {p : List α × List α} {op : AssocOp2 Loc Loc} (S : Std E g inj injk key lt) (hop : OpArgs2 inj injk ρ ϰ R op) (hok : TwoOk key lt p) :
    Triple True (Two inj g c d p ∗ R) ((treeApi u E g).run2 c d op)
      (fun r => ∃ₛ out p', ⌜r = AOut.map inj out ∧ AssocStep2 key lt u ρ ϰ op p out p' ∧ TwoOk key lt p'⌝ ∗ Two inj g c d p' ∗ R) := by
  have hw := S.lt_weak
  refine two_elim fun h k es es' h1 h2 => ?_
  cases op with
  | on b op =>
    cases b with
    | false =>
      show Triple True _ ((treeApi u E g).run c op) _
      refine Triple.post (op_spec (st := p.1) (OpArgs.frame (P := isTree d k g es') hop) h1 hok.1 S) fun r => ?_
      refine ent_ex_left fun out => ent_ex_left fun es1 => ent_ex_left fun st' => ent_pure_left fun h3 => ?_
      apply ent_ex_right out
      apply ent_ex_right (st', p.2)
      refine ent_pure_right ⟨h3.1, ⟨st', h3.2.1, rfl⟩, AssocStep.multiOk hw hok.1 h3.2.1, hok.2⟩ ?_
      exact two_intro (p := (st', p.2)) h3.2.2 h2
    | true =>
      show Triple True _ ((treeApi u E g).run d op) _
      rw [sep_left_comm]
      refine Triple.post (op_spec (st := p.2) (OpArgs.frame (P := isTree c h g es) hop) h2 hok.2 S) fun r => ?_
      refine ent_ex_left fun out => ent_ex_left fun es1 => ent_ex_left fun st' => ent_pure_left fun h3 => ?_
      apply ent_ex_right out
      apply ent_ex_right (p.1, st')
      refine ent_pure_right ⟨h3.1, ⟨st', h3.2.1, rfl⟩, hok.1, AssocStep.multiOk hw hok.2 h3.2.1⟩ ?_
      rw [sep_left_comm]
      exact two_intro (p := (p.1, st')) h1 h3.2.2
  | copyRange b i j =>
    cases b with
    | false =>
      refine copy_spec (s1 := p.1) (s2 := p.2) S h1 h2 hok.1 fun es1 s1' h3 h4 => ?_
      apply Triple.ret
      apply ent_ex_right AOut.done
      apply ent_ex_right (s1', p.2)
      refine ent_pure_right ⟨rfl, ⟨rfl, ?_⟩, ?_, hok.2⟩ (two_intro (p := (s1', p.2)) h4 h2)
      · show if i ≤ j ∧ j ≤ p.2.length then _ else _
        split at h3
        · rename_i hij
          rw [if_pos hij]
          exact ⟨s1', h3, rfl⟩
        · rename_i hij
          rw [if_neg hij, h3]
      · split at h3
        · exact InsAll.multiOk hw hok.1 h3
        · rw [h3]; exact hok.1
    | true =>
      rw [sep_left_comm]
      refine copy_spec (s1 := p.2) (s2 := p.1) S h2 h1 hok.2 fun es1 s1' h3 h4 => ?_
      rw [sep_left_comm]
      apply Triple.ret
      apply ent_ex_right AOut.done
      apply ent_ex_right (p.1, s1')
      refine ent_pure_right ⟨rfl, ⟨rfl, ?_⟩, hok.1, ?_⟩ (two_intro (p := (p.1, s1')) h1 h4)
      · show if i ≤ j ∧ j ≤ p.1.length then _ else _
        split at h3
        · rename_i hij
          rw [if_pos hij]
          exact ⟨s1', h3, rfl⟩
        · rename_i hij
          rw [if_neg hij, h3]
      · split at h3
        · exact InsAll.multiOk hw hok.2 h3
        · rw [h3]; exact hok.2
  | swap =>
    show Triple True _ (swap c d >>= _) _
    refine Triple.bind swap_spec fun _ => ?_
    apply Triple.ret
    apply ent_ex_right AOut.done
    apply ent_ex_right (p.2, p.1)
    exact ent_pure_right ⟨rfl, ⟨rfl, rfl⟩, hok.2, hok.1⟩ (two_intro (p := (p.2, p.1)) h2 h1)

theorem runAll2_spec {c d : Addr} {os : List (AssocOp2 Loc Loc)} (S : Std E g inj injk key lt) : ∀ {p : List α × List α}, (∀ o ∈ os, OpArgs2 inj injk ρ ϰ R o) → TwoOk key lt p →
    Triple True (Two inj g c d p ∗ R) ((treeApi u E g).runAll2 c d os)
      (fun rs => ∃ₛ outs p', ⌜rs = outs.map (AOut.map inj) ∧ Runs (AssocStep2 key lt u ρ ϰ) os p outs p' ∧ TwoOk key lt p'⌝ ∗ Two inj g c d p' ∗ R) := by
  induction os with
  | nil =>
    intro p _ hok
    rw [Api.runAll2]
    apply Triple.ret
    apply ent_ex_right []
    apply ent_ex_right p
    exact ent_pure_right ⟨rfl, Runs.nil p, hok⟩ (ent_refl _)
  | cons o os ih =>
    intro p ha hok
    rw [Api.runAll2]
    refine Triple.bind (op2_spec S (ha o List.mem_cons_self) hok) fun r => ?_
    refine Triple.ex_left fun out => Triple.ex_left fun p1 => ?_
    apply Triple.pure_left
    rintro ⟨rfl, h1, h2⟩
    refine Triple.bind (ih (fun o ho => ha o (List.mem_cons_of_mem _ ho)) h2) fun rs => ?_
    refine Triple.ex_left fun outs => Triple.ex_left fun p2 => ?_
    apply Triple.pure_left
    rintro ⟨rfl, h3, h4⟩
    apply Triple.ret
    apply ent_ex_right (out :: outs)
    apply ent_ex_right p2
    exact ent_pure_right ⟨rfl, Runs.cons h1 h3, h4⟩ (ent_refl _)

/-- the whole life of two containers -/
theorem life_spec {os : List (AssocOp2 Loc Loc)} (S : Std E g inj injk key lt) (hg : g.kt ≠ 0 ∧ g.vt ≠ 0 ∧ g.kov ≠ 0 ∧ g.cmp ≠ 0) (ha : ∀ o ∈ os, OpArgs2 inj injk ρ ϰ R o) :
    Triple True R ((treeApi u E g).life os)
      (fun r => ∃ₛ outs p h k, ⌜r = some (outs.map (AOut.map inj)) ∧ Runs (AssocStep2 key lt u ρ ϰ) os ([], []) outs p ∧ TwoOk key lt p⌝ ∗ leaked h ∗ leaked k ∗ R) := by
  unfold Api.life
  show Triple True R (create g.kt g.vt g.mt g.kov g.cmp >>= _) _
  refine create_spec hg (fun hn => (hn trivial).elim) fun c h hc => ?_
  rw [if_neg hc]
  show Triple True _ (create g.kt g.vt g.mt g.kov g.cmp >>= _) _
  refine create_spec hg (fun hn => (hn trivial).elim) fun d k hd => ?_
  rw [if_neg hd, sep_left_comm]
  refine Triple.pre (two_intro (p := ([], [])) (inj := inj) (c := c) (d := d) rfl rfl) ?_
  refine Triple.bind (runAll2_spec S ha ⟨List.Pairwise.nil, List.Pairwise.nil⟩) fun rs => ?_
  refine Triple.ex_left fun outs => Triple.ex_left fun p => ?_
  apply Triple.pure_left
  rintro ⟨rfl, h1, h2⟩
  refine two_elim fun h' k' es es' h3 h4 => ?_
  show Triple True _ (destroy c >>= fun _ => destroy d >>= _) _
  refine Triple.bind destroy_spec fun _ => ?_
  rw [sep_left_comm]
  refine Triple.bind destroy_spec fun _ => ?_
  apply Triple.ret
  apply ent_ex_right outs
  apply ent_ex_right p
  apply ent_ex_right h'
  apply ent_ex_right k'
  refine ent_pure_right ⟨rfl, h1, h2⟩ ?_
  rw [sep_left_comm]
  exact ent_refl _

end Assoc
end CC
