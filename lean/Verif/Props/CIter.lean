import Verif.Iter.Sources
/-!
# Properties of iterators (C59, C60)
-/
namespace CC
open CC.Iter CC.Tac
open CC.CList (Elem)
variable {V : Type} {nf : Prop} {Z : Nat → Nat} {vp : Nat}

/-! ## C59 iterators are positions -/

/-- Any number of containers of any kinds, iterator variables pointing anywhere into them, and any sequence of allowed iterator operations (obtaining the ends, copying, assigning,
moving, advancing, dereferencing, comparing, measuring distances, freeing copies) on the forward and reverse iterators of all of them: the client observes what the
specification of positions says, the containers are left as they were, and there is no memory but the containers and the iterators of the variables. -/
theorem C59_iterators {cs : List (Cont V)} {ops : List Op} {xs : List Var} (hc : ∀ c ∈ cs, Known nf Z c)
    (hv : Allowed nf ((cs.flatMap Cont.srcs).map Src.toShape) xs ops) :
    Triple nf (mems cs ∗ vars (cs.flatMap Cont.srcs) vp xs) (runAll Z (cs.flatMap Cont.srcs) vp ops)
      (fun obs => ∃ₛ xs', ⌜Steps nf ((cs.flatMap Cont.srcs).map Src.toShape) xs ops xs' obs⌝ ∗ mems cs ∗ vars (cs.flatMap Cont.srcs) vp xs') :=
  runAll_spec (world_all fun c h => (hc c h).ok).1 hv

/-- the same for one vector or deque, which may have no storage -/
theorem C59_vector {W : Type} {T : Nat → Ops V} {ty v b cap : Nat} {e : ElemSpec nf (T ty) W} {ws : List W} {ops : List Op} {xs : List Var} (hty : ty ≠ 0) (hz : 0 < Z ty)
    (hb : ws.length * Z ty < 2 ^ 63) (hv : Allowed nf ([vecSrc v b ty ws.length, vecSrcR v b ty ws.length].map (Src.toShape (V := V))) xs ops) :
    Triple nf (Vec.isVec e v b cap ws ∗ vars [vecSrc v b ty ws.length, vecSrcR v b ty ws.length] vp xs) (runAll Z [vecSrc v b ty ws.length, vecSrcR v b ty ws.length] vp ops)
      (fun obs => ∃ₛ xs', ⌜Steps nf ([vecSrc v b ty ws.length, vecSrcR v b ty ws.length].map (Src.toShape (V := V))) xs ops xs' obs⌝ ∗
        Vec.isVec e v b cap ws ∗ vars [vecSrc v b ty ws.length, vecSrcR v b ty ws.length] vp xs') :=
  runAll_spec (world_one (c := vecCont e v b cap ws) (vecCont_ok hty hz hb)) hv

theorem C59_deque {W : Type} {T : Nat → Ops V} {ty v b lo hi : Nat} {e : ElemSpec nf (T ty) W} {ws : List W} {ops : List Op} {xs : List Var} (hty : ty ≠ 0) (hz : 0 < Z ty)
    (hb : ws.length * Z ty < 2 ^ 63) (hv : Allowed nf ([deqSrc v b lo ty ws.length, deqSrcR v b lo ty ws.length].map (Src.toShape (V := V))) xs ops) :
    Triple nf (Deq.isDeq e v b lo hi ws ∗ vars [deqSrc v b lo ty ws.length, deqSrcR v b lo ty ws.length] vp xs)
      (runAll Z [deqSrc v b lo ty ws.length, deqSrcR v b lo ty ws.length] vp ops)
      (fun obs => ∃ₛ xs', ⌜Steps nf ([deqSrc v b lo ty ws.length, deqSrcR v b lo ty ws.length].map (Src.toShape (V := V))) xs ops xs' obs⌝ ∗
        Deq.isDeq e v b lo hi ws ∗ vars [deqSrc v b lo ty ws.length, deqSrcR v b lo ty ws.length] vp xs') :=
  runAll_spec (world_one (c := deqCont e v b lo hi ws) (deqCont_ok hty hz hb)) hv

/-! ### what the specification implies -/

/-- The specification is deterministic if allocation does not fail: the client's observations are determined. -/
theorem C59_deterministic {S : List Shape} {op : Op} {xs xs₁ xs₂ : List Var} {o₁ o₂ : Obs} (h₁ : Step True S xs op xs₁ o₁) (h₂ : Step True S xs op xs₂ o₂) : xs₁ = xs₂ ∧ o₁ = o₂ := by
  cases h₁ <;> cases h₂ <;> simp_all

/-! ### the hypotheses are met -/

/-- a list 7, 8, a forward list 9 and a tree 5 -/
private def cs0 : List (Cont Nat) :=
  [listCont 10 11 1 [⟨20, 21, 7⟩, ⟨22, 23, 8⟩], slistCont 30 31 32 1 [⟨33, 34, 9⟩], treeCont 40 41 ⟨1, 1, 0, 0, 0⟩ [⟨42, 43, 5⟩]]
example : ∀ c ∈ cs0, Known True (fun _ => 4) c := by
  intro c hc
  simp only [cs0, List.mem_cons, List.not_mem_nil, or_false] at hc
  rcases hc with rfl | rfl | rfl
  · exact .list (by decide)
  · exact .slist (by decide)
  · exact .tree (by decide)

private abbrev sh0 : List Shape := (cs0.flatMap Cont.srcs).map Src.toShape
private theorem sh0_0 : ∃ r, sh0[0]? = some r ∧ r.len = 2 ∧ r.kind = .list ∧ r.ref 0 = (21, 1) ∧ r.ref 1 = (23, 1) := ⟨_, rfl, rfl, rfl, rfl, rfl⟩

/-- a history on it: go to the begin, keep a copy, move on by a post-increment, look at the element, measure the distance, free the copies -/
private def ops0 : List Op := [.first 0 0, .copy 1 0, .postInc 0 2, .deref 0, .distance 1 0, .eq 1 2, .free 1, .free 2]
private theorem steps0 {xs' : List Var} {obs : List Obs} (h : Steps True sh0 [.raw, .null, .null] ops0 xs' obs) :
    xs' = [.at_ 0 1 false, .null, .null] ∧ obs = [.done, .done, .null false, .loc (23, 1), .int 1, .bool true, .done, .done] := by
  obtain ⟨r, hr, h1, h2, h3, h4⟩ := sh0_0
  have d := @C59_deterministic sh0
  cases h with | cons a h =>
  obtain ⟨rfl, rfl⟩ := d a (.first (x := .raw) rfl (by simp) hr)
  cases h with | cons a h =>
  obtain ⟨rfl, rfl⟩ := d a (.copy rfl rfl)
  cases h with | cons a h =>
  obtain ⟨rfl, rfl⟩ := d a (.postInc rfl rfl hr (by omega))
  cases h with | cons a h =>
  obtain ⟨rfl, rfl⟩ := d a (.deref rfl hr (by omega))
  cases h with | cons a h =>
  obtain ⟨rfl, rfl⟩ := d a (.distance rfl rfl (by omega))
  cases h with | cons a h =>
  obtain ⟨rfl, rfl⟩ := d a (.eq rfl rfl)
  cases h with | cons a h =>
  obtain ⟨rfl, rfl⟩ := d a (.free rfl)
  cases h with | cons a h =>
  obtain ⟨rfl, rfl⟩ := d a (.free rfl)
  cases h
  exact ⟨rfl, by rw [h4]; rfl⟩
example : Allowed True sh0 [.raw, .null, .null] ops0 := by
  obtain ⟨r, hr, h1, h2, h3, h4⟩ := sh0_0
  have d := @C59_deterministic sh0
  have key : ∀ {xs op ops xs1 o}, Step True sh0 xs op xs1 o → Allowed True sh0 xs1 ops → Allowed True sh0 xs (op :: ops) := by
    intro xs op ops xs1 o h1 h2
    refine ⟨⟨_, _, h1⟩, fun xs' ob h => ?_⟩
    obtain ⟨rfl, rfl⟩ := d h1 h
    exact h2
  refine key (.first (x := .raw) rfl (by simp) hr) ?_
  refine key (.copy rfl rfl) ?_
  refine key (.postInc rfl rfl hr (by omega)) ?_
  refine key (.deref rfl hr (by omega)) ?_
  refine key (.distance rfl rfl (by omega)) ?_
  refine key (.eq rfl rfl) ?_
  refine key (.free rfl) ?_
  exact key (.free rfl) trivial

/-! ## C60 distances of random access iterators -/

theorem quot_neg {k z : Nat} (hz : 2 ≤ z) (hb : k * z < 2 ^ 63) : 0 ≤ quot (-(k : Int) * z) z := by
  unfold quot
  have h0 : (0 : Int) ≤ -(k : Int) * z % 2 ^ 64 := Int.emod_nonneg _ (by decide)
  have h1 : -(k : Int) * z % 2 ^ 64 < 2 ^ 64 := Int.emod_lt_of_pos _ (by decide)
  have h2 : (0 : Int) ≤ -(k : Int) * z % 2 ^ 64 / z := Int.ediv_nonneg h0 (by omega)
  have h3 : -(k : Int) * z % 2 ^ 64 / z < 2 ^ 63 := by
    refine Int.ediv_lt_of_lt_mul (by omega) ?_
    have : (2 : Int) ^ 63 * 2 ≤ 2 ^ 63 * z := Int.mul_le_mul_of_nonneg_left (by omega) (by decide)
    omega
  simp only [h3, ↓reduceIte]
  exact h2

/-- two iterators of one vector, deque (forward or reverse), from the later to the earlier -/
private theorem dist_back {C : HProp V} {r : Src V} {a b i j : Nat} {G : HProp V} {d : Int}
    (hd : distP (Z r.ty) r.kind (r.pay i) (r.pay j) = (pure d : M V Int)) :
    Triple nf (isIt r.kind r.ty a (r.pay i) ∗ isIt r.kind r.ty b (r.pay j) ∗ C ∗ G) (cDistance Z a b)
      (fun x => ⌜x = d⌝ ∗ isIt r.kind r.ty a (r.pay i) ∗ isIt r.kind r.ty b (r.pay j) ∗ C ∗ G) := by
  refine Triple.fact (p := a ≠ 0) (fun h hh => isIt_ne hh) fun ha => ?_
  refine Triple.fact (p := b ≠ 0) (fun h hh => isIt_ne (k := r.kind) (ty := r.ty) (a := b) (p := r.pay j) (F := isIt r.kind r.ty a (r.pay i) ∗ C ∗ G)
    ((show _ ⊢ₛ _ by cancel) _ hh)) fun hb => ?_
  rw [← bind_pure (cDistance Z a b)]
  refine cDistance_reads (ItAt.of_ent ha (ent_refl _)) (ItAt.of_ent (R := isIt r.kind r.ty a (r.pay i) ∗ C ∗ G) hb (by cancel)) ?_
  rw [hd, pure_bind]
  exact Triple.ret (ent_pure_right rfl (ent_refl _))

/-- the distance of positions `i` and `j` as the code computes it -/
private theorem dist_code {v b ty n i j : Nat} (hz : 0 < Z ty) :
    distP (Z ty) .vec ((vecSrc (V := V) v b ty n).pay i) ((vecSrc (V := V) v b ty n).pay j) = (pure (quot (((j : Int) - i) * Z ty) (Z ty)) : M V Int) := by
  refine (if_neg (by omega)).trans ?_
  congr 3
  omega

/-- For types of size 1 the distance of any two positions is right. -/
theorem C60_distance_partial {W : Type} {T : Nat → Ops V} {ty v b cap a c i j : Nat} {e : ElemSpec nf (T ty) W} {ws : List W} (hz : Z ty = 1) (hi : i ≤ ws.length) (hj : j ≤ ws.length)
    (hb : ws.length < 2 ^ 63) :
    Triple nf (isIt .vec ty a (.pos b (1 + i)) ∗ isIt .vec ty c (.pos b (1 + j)) ∗ Vec.isVec e v b cap ws ∗ emp) (cDistance Z a c)
      (fun d => ⌜d = (j : Int) - i⌝ ∗ isIt .vec ty a (.pos b (1 + i)) ∗ isIt .vec ty c (.pos b (1 + j)) ∗ Vec.isVec e v b cap ws ∗ emp) := by
  have := dist_back (nf := nf) (Z := Z) (r := vecSrc v b ty ws.length) (C := Vec.isVec e v b cap ws) (G := emp) (a := a) (b := c) (dist_code (V := V) (v := v) (b := b) (ty := ty) (n := ws.length) (i := i) (j := j) (Z := Z) (by omega))
  refine Triple.conseq this (ent_refl _) fun x => ?_
  refine sep_mono (fun h hh => ?_) (ent_refl _)
  obtain ⟨h1, h2⟩ := hh
  refine ⟨?_, h2⟩
  rw [h1, hz]
  unfold quot
  simp only [Int.natCast_one, Int.mul_one, Int.ediv_one]
  split <;> omega

/-- For larger types the distance from a position back to an earlier one is not the negative number it should be (the difference in bytes is divided as an unsigned number). -/
theorem C60_distance_violated {W : Type} {T : Nat → Ops V} {ty v b cap a c i j : Nat} {e : ElemSpec nf (T ty) W} {ws : List W} (hz : 2 ≤ Z ty) (hi : i ≤ ws.length) (hj : j < i)
    (hb : ws.length * Z ty < 2 ^ 63) :
    Triple nf (isIt .vec ty a (.pos b (1 + i)) ∗ isIt .vec ty c (.pos b (1 + j)) ∗ Vec.isVec e v b cap ws ∗ emp) (cDistance Z a c)
      (fun d => ⌜d ≠ (j : Int) - i ∧ 0 ≤ d⌝ ∗ isIt .vec ty a (.pos b (1 + i)) ∗ isIt .vec ty c (.pos b (1 + j)) ∗ Vec.isVec e v b cap ws ∗ emp) := by
  have := dist_back (nf := nf) (Z := Z) (r := vecSrc v b ty ws.length) (C := Vec.isVec e v b cap ws) (G := emp) (a := a) (b := c) (dist_code (V := V) (v := v) (b := b) (ty := ty) (n := ws.length) (i := i) (j := j) (Z := Z) (by omega))
  refine Triple.conseq this (ent_refl _) fun x => ?_
  refine sep_mono (fun h hh => ?_) (ent_refl _)
  obtain ⟨h1, h2⟩ := hh
  refine ⟨?_, h2⟩
  have hq := quot_neg (k := i - j) hz (Nat.lt_of_le_of_lt (Nat.mul_le_mul_right _ (by omega)) hb)
  have he : -(((i - j : Nat) : Int)) = (j : Int) - i := by omega
  rw [he] at hq
  rw [h1]
  exact ⟨by omega, hq⟩

/-- the iterators of the containers with random access: the iterators (forward or reverse) of a vector or a deque, and the memory the container owns -/
inductive RandomSrc (nf : Prop) : Src V → HProp V → Prop where
  | vec {W : Type} {T : Nat → Ops V} {ty v b cap : Nat} {e : ElemSpec nf (T ty) W} {ws : List W} : RandomSrc nf (vecSrc v b ty ws.length) (Vec.isVec e v b cap ws)
  | vecR {W : Type} {T : Nat → Ops V} {ty v b cap : Nat} {e : ElemSpec nf (T ty) W} {ws : List W} : RandomSrc nf (vecSrcR v b ty ws.length) (Vec.isVec e v b cap ws)
  | deq {W : Type} {T : Nat → Ops V} {ty v b lo hi : Nat} {e : ElemSpec nf (T ty) W} {ws : List W} : RandomSrc nf (deqSrc v b lo ty ws.length) (Deq.isDeq e v b lo hi ws)
  | deqR {W : Type} {T : Nat → Ops V} {ty v b lo hi : Nat} {e : ElemSpec nf (T ty) W} {ws : List W} : RandomSrc nf (deqSrcR v b lo ty ws.length) (Deq.isDeq e v b lo hi ws)

/-- the distance of positions `i` and `j` of any of these as the code computes it -/
private theorem dist_any {r : Src V} {C : HProp V} (h : RandomSrc nf r C) {i j : Nat} (hi : i ≤ r.len) (hj : j ≤ r.len) (hz : 0 < Z r.ty) :
    distP (Z r.ty) r.kind (r.pay i) (r.pay j) = (pure (quot (((j : Int) - i) * Z r.ty) (Z r.ty)) : M V Int) := by
  cases h with
  | vec => exact dist_code hz
  | deq =>
    refine (if_neg (fun hh => hh.elim (fun h => h rfl) fun h => absurd h (Nat.pos_iff_ne_zero.1 hz))).trans ?_
    congr 3
    omega
  | vecR =>
    refine (if_neg (fun hh => hh.elim (fun h => h rfl) fun h => absurd h (Nat.pos_iff_ne_zero.1 hz))).trans ?_
    simp only [vecSrcR] at hi hj ⊢
    congr 3
    omega
  | deqR =>
    refine (if_neg (fun hh => hh.elim (fun h => h rfl) fun h => absurd h (Nat.pos_iff_ne_zero.1 hz))).trans ?_
    simp only [deqSrcR] at hi hj ⊢
    congr 3
    omega

theorem quot_pos {k z : Nat} (hz : 0 < z) (hb : k * z < 2 ^ 63) : quot ((k : Int) * z) z = k := by
  unfold quot
  have e1 : ((k : Int) * z) % 2 ^ 64 = (k : Int) * z := by
    rw [← Int.natCast_mul]
    generalize k * z = n at hb
    omega
  have e2 : (k : Int) * z / z = k := Int.mul_ediv_cancel _ (by omega)
  simp only [e1, e2]
  have hk : k < 2 ^ 63 := Nat.lt_of_le_of_lt (Nat.le_mul_of_pos_right _ hz) hb
  rw [if_pos (by omega)]

/-- The distance of two positions of a vector or deque, in forward or reverse iteration, is right if the second is not before the first or the type has size 1.
(Missing: positions in the other order, larger types.) -/
theorem C60_random_partial {r : Src V} {C G : HProp V} (h : RandomSrc nf r C) {a c i j : Nat} (hi : i ≤ r.len) (hj : j ≤ r.len) (hz : 0 < Z r.ty)
    (hb : r.len * Z r.ty < 2 ^ 63) (hij : i ≤ j ∨ Z r.ty = 1) :
    Triple nf (isIt r.kind r.ty a (r.pay i) ∗ isIt r.kind r.ty c (r.pay j) ∗ C ∗ G) (cDistance Z a c)
      (fun d => ⌜d = (j : Int) - i⌝ ∗ isIt r.kind r.ty a (r.pay i) ∗ isIt r.kind r.ty c (r.pay j) ∗ C ∗ G) := by
  refine Triple.conseq (dist_back (nf := nf) (C := C) (G := G) (a := a) (b := c) (dist_any h hi hj hz)) (ent_refl _) fun x => ?_
  refine sep_mono (fun h hh => ?_) (ent_refl _)
  obtain ⟨h1, h2⟩ := hh
  refine ⟨?_, h2⟩
  rw [h1]
  by_cases hle : i ≤ j
  · have := quot_pos (k := j - i) hz (Nat.lt_of_le_of_lt (Nat.mul_le_mul_right _ (by omega)) hb)
    rw [show (((j - i : Nat)) : Int) = (j : Int) - i by omega] at this
    exact this
  · rcases hij with hij | hij
    · omega
    rw [hij] at hb ⊢
    unfold quot
    simp only [Int.natCast_one, Int.mul_one, Int.ediv_one]
    split <;> omega

/-- … and in all other cases it is wrong: not negative. -/
theorem C60_random_violated {r : Src V} {C G : HProp V} (h : RandomSrc nf r C) {a c i j : Nat} (hi : i ≤ r.len) (hj : j < i) (hz : 2 ≤ Z r.ty)
    (hb : r.len * Z r.ty < 2 ^ 63) :
    Triple nf (isIt r.kind r.ty a (r.pay i) ∗ isIt r.kind r.ty c (r.pay j) ∗ C ∗ G) (cDistance Z a c)
      (fun d => ⌜d ≠ (j : Int) - i ∧ 0 ≤ d⌝ ∗ isIt r.kind r.ty a (r.pay i) ∗ isIt r.kind r.ty c (r.pay j) ∗ C ∗ G) := by
  refine Triple.conseq (dist_back (nf := nf) (C := C) (G := G) (a := a) (b := c) (dist_any h hi (by omega) (by omega))) (ent_refl _) fun x => ?_
  refine sep_mono (fun h hh => ?_) (ent_refl _)
  obtain ⟨h1, h2⟩ := hh
  refine ⟨?_, h2⟩
  have hq := quot_neg (k := i - j) hz (Nat.lt_of_le_of_lt (Nat.mul_le_mul_right _ (by omega)) hb)
  rw [show -(((i - j : Nat) : Int)) = (j : Int) - i by omega] at hq
  rw [h1]
  exact ⟨by omega, hq⟩

/-- three elements of four bytes, from the end to the begin: 4611686018427387901 instead of -3 -/
example : quot (-3 * 4) 4 = 4611686018427387901 := by decide

end CC
