import Verif.Algo.ModifySpec3
/-!
# Model of `algorithm/c_partitioning.c` and proofs about it
-/
namespace CC.Algo
open CC CC.Tac
variable {V : Type} {nf : Prop} {P : HProp V} {c d e : Slots} {i j k : Nat} {vs us ws : List V}

/-- the first loop of `algo_is_partitioned`, c_partitioning.c:45-47, and the loop of `algo_partition_point` (151-153) -/
def skipTrue (c : Slots) (pred : V → Bool) (first last : Nat) : M V Nat :=
  if first ≠ last then do
    if ← test pred (c first) then skipTrue c pred (first + 1) last else pure first
  else pure first
partial_fixpoint

/-- the second loop of `algo_is_partitioned`, c_partitioning.c:49-55 -/
def noneTrue (c : Slots) (pred : V → Bool) (first last : Nat) : M V Bool :=
  if first ≠ last then do
    if ← test pred (c first) then pure false else noneTrue c pred (first + 1) last
  else pure true
partial_fixpoint

/-- `algo_is_partitioned`, c_partitioning.c:31-60 -/
def isPartitioned (c : Slots) (first last : Nat) (pred : V → Bool) : M V Bool :=
  if first = last then pure true else do
  let f ← skipTrue c pred first last
  noneTrue c pred f last

/-- loop of `algo_partition`, c_partitioning.c:81-87 -/
def partitionLoop (c : Slots) (pred : V → Bool) (first next last : Nat) : M V Nat :=
  if next ≠ last then do
    if ← test pred (c next) then do
      swp (c first) (c next)
      partitionLoop c pred (first + 1) (next + 1) last
    else partitionLoop c pred first (next + 1) last
  else pure first
partial_fixpoint

/-- `algo_partition`, c_partitioning.c:62-94; returns `*second_first` -/
def partition (c : Slots) (first last : Nat) (pred : V → Bool) : M V Nat := do
  let r ← findIfNot c first last pred
  if r.2 ≠ last then partitionLoop c pred r.2 (r.2 + 1) last else pure r.2

/-- loop of `algo_partition_copy`, c_partitioning.c:118-129 -/
def partitionCopyLoop (c d e : Slots) (pred : V → Bool) (first last dt df n : Nat) : M V (Nat × Nat × Nat) :=
  if first ≠ last then do
    if ← test pred (c first) then do
      asg (d dt) (c first)
      partitionCopyLoop c d e pred (first + 1) last (dt + 1) df (n + 1)
    else do
      asg (e df) (c first)
      partitionCopyLoop c d e pred (first + 1) last dt (df + 1) (n + 1)
  else pure (n, dt, df)
partial_fixpoint

/-- `algo_partition_copy`, c_partitioning.c:96-137; returns the result, `*d_last_true` and `*d_last_false` -/
def partitionCopy (c : Slots) (first last : Nat) (d : Slots) (dFirstTrue : Nat) (e : Slots) (dFirstFalse : Nat) (pred : V → Bool) : M V (Nat × Nat × Nat) :=
  partitionCopyLoop c d e pred first last dFirstTrue dFirstFalse 0

/-- `algo_partition_point`, c_partitioning.c:139-158; returns `*first_last` -/
def partitionPoint (c : Slots) (first last : Nat) (pred : V → Bool) : M V Nat := skipTrue c pred first last

/-! ## proofs -/

theorem skipTrue_spec {pred : V → Bool} (h : Rng P c i vs) :
    Triple nf P (skipTrue c pred i (i + vs.length)) (fun r => ⌜∃ A B, vs = A ++ B ∧ r = i + A.length ∧ (∀ v, v ∈ A → pred v = true) ∧
      (∀ v B', B = v :: B' → pred v = false)⌝ ∗ P) := by
  induction vs generalizing i with
  | nil =>
    rw [skipTrue, if_neg (by simp)]
    apply Triple.ret
    cancel
    exact ⟨[], [], by simp⟩
  | cons v vs ih =>
    rw [skipTrue, if_pos (by simp)]
    refine test_reads h.head ?_
    by_cases hp : pred v = true
    · rw [if_pos hp, show i + (v :: vs).length = i + 1 + vs.length by simp; omega]
      refine Triple.post (ih h.tail) ?_
      intro r
      xintro hr
      cancel
      obtain ⟨A, B, rfl, rfl, h1, h2⟩ := hr
      exact ⟨v :: A, B, rfl, by simp; omega, by simpa [hp] using h1, h2⟩
    · rw [if_neg hp]
      apply Triple.ret
      cancel
      refine ⟨[], v :: vs, rfl, rfl, by simp, ?_⟩
      intro x B' hx
      cases hx
      simpa using hp

theorem noneTrue_spec {pred : V → Bool} (h : Rng P c i vs) :
    Triple nf P (noneTrue c pred i (i + vs.length)) (fun r => ⌜r = true ↔ ∀ v, v ∈ vs → pred v = false⌝ ∗ P) := by
  induction vs generalizing i with
  | nil =>
    rw [noneTrue, if_neg (by simp)]
    apply Triple.ret
    cancel
    simp
  | cons v vs ih =>
    rw [noneTrue, if_pos (by simp)]
    refine test_reads h.head ?_
    by_cases hp : pred v = true
    · rw [if_pos hp]
      apply Triple.ret
      cancel
      simp [hp]
    · rw [if_neg hp, show i + (v :: vs).length = i + 1 + vs.length by simp; omega]
      refine Triple.post (ih h.tail) ?_
      intro r
      xintro hr
      cancel
      simpa [hp] using hr

theorem parted_append {q : V → Bool} {A B : List V} (hA : ∀ v, v ∈ A → q v = true) : Parted q (A ++ B) ↔ Parted q B := by
  unfold Parted
  rw [List.pairwise_append]
  constructor
  · exact fun h => h.2.1
  · intro h
    refine ⟨?_, h, fun a ha b _ _ => hA a ha⟩
    exact List.Pairwise.imp_of_mem (R := fun _ _ => True) (fun ha _ _ _ => hA _ ha) (List.pairwise_of_forall fun _ _ => trivial)

theorem isPartitioned_spec {pred : V → Bool} (h : Rng P c i vs) :
    Triple nf P (isPartitioned c i (i + vs.length) pred) (fun r => ⌜r = true ↔ Parted pred vs⌝ ∗ P) := by
  unfold isPartitioned
  by_cases h0 : vs = []
  · subst h0
    rw [if_pos (by simp)]
    apply Triple.ret
    cancel
    simp [Parted]
  rw [if_neg (by cases vs <;> simp_all)]
  refine Triple.bind (skipTrue_spec h) ?_
  intro f
  xintro hf
  obtain ⟨A, B, rfl, rfl, hA, hB⟩ := hf
  have := noneTrue_spec (nf := nf) (pred := pred) (by have := h.drop A.length; rw [List.drop_left] at this; exact this)
  rw [show i + A.length + B.length = i + (A ++ B).length by simp; omega] at this
  refine Triple.post this ?_
  intro r
  xintro hr
  cancel
  rw [hr, parted_append hA]
  cases B with
  | nil => simp [Parted]
  | cons b B =>
    have hb := hB b B rfl
    rw [Parted, List.pairwise_cons]
    constructor
    · intro hn
      refine ⟨fun a ha hpa => ?_, ?_⟩
      · rw [hn a (List.mem_cons_of_mem _ ha)] at hpa; cases hpa
      · refine List.Pairwise.imp_of_mem (R := fun _ _ => True) (fun {a x} _ hx _ hpx => ?_) (List.pairwise_of_forall fun _ _ => trivial)
        rw [hn x (List.mem_cons_of_mem _ hx)] at hpx; cases hpx
    · rintro ⟨h1, _⟩ v hv
      cases hpv : pred v
      · rfl
      · rcases List.mem_cons.1 hv with rfl | hv'
        · rw [hb] at hpv; cases hpv
        · rw [h1 v hv' hpv] at hb; cases hb

theorem partitionPoint_spec {pred : V → Bool} (h : Rng P c i vs) (hp : Parted pred vs) :
    Triple nf P (partitionPoint c i (i + vs.length) pred) (fun r => ⌜∃ k, r = i + k ∧ SplitAt pred vs k⌝ ∗ P) := by
  refine Triple.post (skipTrue_spec h) ?_
  intro r
  xintro hr
  cancel
  obtain ⟨A, B, rfl, rfl, hA, hB⟩ := hr
  refine ⟨A.length, rfl, by simp, by simpa using hA, ?_⟩
  rw [List.drop_left]
  intro v hv
  rw [parted_append hA] at hp
  cases B with
  | nil => simp at hv
  | cons b B =>
    have hb := hB b B rfl
    rcases List.mem_cons.1 hv with rfl | hv'
    · exact hb
    · cases hpv : pred v
      · rfl
      · rw [(List.pairwise_cons.1 hp).1 v hv' hpv] at hb; cases hb

theorem partitionLoop_spec {pred : V → Bool} {F : List V} (hF : ∀ v, v ∈ F → pred v = false) (hne : F ≠ []) :
    Triple nf (seg c i (F ++ vs)) (partitionLoop c pred i (i + F.length) (i + F.length + vs.length))
      (fun r => ∃ₛ A, ∃ₛ B, ⌜r = i + A.length ∧ (A ++ B).Perm (F ++ vs) ∧ (∀ v, v ∈ A → pred v = true) ∧ (∀ v, v ∈ B → pred v = false)⌝ ∗ seg c i (A ++ B)) := by
  induction vs generalizing i F with
  | nil =>
    rw [partitionLoop, if_neg (by simp)]
    apply Triple.ret
    xexists [], F
    simp only [List.append_nil, List.nil_append]
    cancel
    exact ⟨rfl, List.Perm.refl _, by simp, hF⟩
  | cons v vs ih =>
    rw [partitionLoop, if_pos (by simp)]
    have hread : Reads (seg c i (F ++ v :: vs)) (c (i + F.length)) v := by
      have := (seg_rng (c := c) (i := i) (vs := F ++ v :: vs)) F.length (by simp)
      simpa using this
    refine test_reads hread ?_
    by_cases hp : pred v = true
    · rw [if_pos hp]
      cases F with
      | nil => exact absurd rfl hne
      | cons f F =>
        refine Triple.bind (Q := fun _ => pts (c i) (.obj (some v)) ∗ seg c (i + 1) ((F ++ [f]) ++ vs)) ?_ ?_
        · rw [show f :: F ++ v :: vs = f :: (F ++ v :: vs) by rfl, show F ++ [f] ++ vs = F ++ f :: vs by simp, seg_cons, seg_append, seg_append, seg_cons, seg_cons,
            show i + 1 + F.length = i + (f :: F).length by simp; omega]
          call (swp_pts (x := c i) (y := c (i + (f :: F).length)) (a := f) (b := v))
          intro _
          cancel
        intro _
        have := ih (i := i + 1) (F := F ++ [f]) (by intro x hx; apply hF; simp at hx ⊢; exact hx.symm) (by simp)
        rw [show i + 1 + (F ++ [f]).length = i + (f :: F).length + 1 by simp; omega] at this
        rw [show i + (f :: F).length + (v :: vs).length = i + (f :: F).length + 1 + vs.length by simp; omega]
        call this
        intro r
        xintro A B h
        obtain ⟨h1, h2, h3, h4⟩ := h
        xexists v :: A, B
        rw [List.cons_append, seg_cons]
        cancel
        refine ⟨by simp [h1]; omega, ?_, by simpa [hp] using h3, h4⟩
        refine (List.Perm.cons v h2).trans ?_
        refine List.Perm.trans ?_ (List.perm_middle (l₁ := f :: F)).symm
        refine List.Perm.cons v ?_
        rw [List.append_assoc]
        exact List.perm_middle
    · rw [if_neg hp]
      have := ih (i := i) (F := F ++ [v]) (by intro x hx; rcases List.mem_append.1 hx with h | h; exact hF x h; simp at h; subst h; simpa using hp) (by simp)
      rw [show i + (F ++ [v]).length = i + F.length + 1 by simp; omega, show F ++ [v] ++ vs = F ++ v :: vs by simp] at this
      rw [show i + F.length + (v :: vs).length = i + F.length + 1 + vs.length by simp; omega]
      exact this

theorem partition_spec {pred : V → Bool} :
    Triple nf (seg c i vs) (partition c i (i + vs.length) pred)
      (fun r => ∃ₛ A, ∃ₛ B, ⌜r = i + A.length ∧ (A ++ B).Perm vs ∧ (∀ v, v ∈ A → pred v = true) ∧ (∀ v, v ∈ B → pred v = false)⌝ ∗ seg c i (A ++ B)) := by
  unfold partition
  refine Triple.bind (findIfNot_spec (pred := pred) seg_rng) ?_
  intro r
  xintro hr
  have hr' : FoundFirst (At vs fun v => (fun v => !pred v) v = true) vs.length i r := by
    simpa using hr
  obtain ⟨A, B, rfl, h1, h2, h3⟩ := found_split hr'
  have hA : ∀ v, v ∈ A → pred v = true := fun v hv => by simpa using h2 v hv
  cases B with
  | nil =>
    rw [if_neg (by simp [h1])]
    apply Triple.ret
    xexists A, []
    cancel
    refine ⟨h1, List.Perm.refl _, hA, by simp⟩
  | cons v B =>
    rw [if_pos (by simp [h1])]
    have hv : pred v = false := by simpa using h3 v B rfl
    have := partitionLoop_spec (nf := nf) (c := c) (i := i + A.length) (F := [v]) (vs := B) (pred := pred) (by simpa using hv) (by simp)
    rw [List.length_singleton, ← h1, show [v] ++ B = v :: B from rfl] at this
    rw [show i + (A ++ v :: B).length = r.2 + 1 + B.length by simp [h1]; omega, seg_append, ← h1]
    call this
    intro r'
    xintro A' B' h
    obtain ⟨e1, e2, e3, e4⟩ := h
    xexists A ++ A', B'
    rw [List.append_assoc, seg_append (xs := A), ← h1]
    cancel
    refine ⟨by simp [e1, h1]; omega, List.Perm.append_left A e2, ?_, e4⟩
    intro x hx
    rcases List.mem_append.1 hx with h | h
    · exact hA x h
    · exact e3 x h

theorem partitionCopyLoop_spec {pred : V → Bool} {n : Nat} (h : Rng P c i vs) (hl : (vs.filter pred).length ≤ us.length) (hl' : (vs.filter fun v => !pred v).length ≤ ws.length) :
    Triple nf (P ∗ seg d j us ∗ seg e k ws) (partitionCopyLoop c d e pred i (i + vs.length) j k n)
      (fun r => ⌜r = (n + vs.length, j + (vs.filter pred).length, k + (vs.filter fun v => !pred v).length)⌝ ∗ P ∗
        seg d j (over us (vs.filter pred)) ∗ seg e k (over ws (vs.filter fun v => !pred v))) := by
  induction vs generalizing i j k us ws n P with
  | nil =>
    rw [partitionCopyLoop, if_neg (by simp)]
    apply Triple.ret
    simp [over]
    cancel
  | cons v vs ih =>
    rw [partitionCopyLoop, if_pos (by simp)]
    refine test_reads h.head.left ?_
    rw [show i + (v :: vs).length = i + 1 + vs.length by simp; omega]
    by_cases hp : pred v = true
    · rw [if_pos hp]
      rw [List.filter_cons_of_pos hp] at hl ⊢
      rw [List.filter_cons_of_neg (by simp [hp])] at hl' ⊢
      cases us with
      | nil => simp at hl
      | cons u us =>
        refine Triple.pre (P' := (P ∗ seg e k ws) ∗ seg d j (u :: us)) (by cancel) ?_
        refine asg_seg h.head.left ?_
        refine Triple.pre (P' := (P ∗ pts (d j) (.obj (some v))) ∗ seg d (j + 1) us ∗ seg e k ws) (by cancel) ?_
        refine Triple.post (ih h.tail.left (by simpa using hl) hl') ?_
        intro r
        xintro hr
        simp only [over, List.cons_append, seg_cons, List.length_cons, List.drop_succ_cons]
        cancel
        rw [hr]; ext <;> simp <;> omega
    · rw [if_neg hp]
      rw [List.filter_cons_of_neg hp] at hl ⊢
      rw [List.filter_cons_of_pos (by simp [hp])] at hl' ⊢
      cases ws with
      | nil => simp at hl'
      | cons u ws =>
        refine Triple.pre (P' := (P ∗ seg d j us) ∗ seg e k (u :: ws)) (by cancel) ?_
        refine asg_seg h.head.left ?_
        refine Triple.pre (P' := (P ∗ pts (e k) (.obj (some v))) ∗ seg d j us ∗ seg e (k + 1) ws) (by cancel) ?_
        refine Triple.post (ih h.tail.left hl (by simpa using hl')) ?_
        intro r
        xintro hr
        simp only [over, List.cons_append, seg_cons, List.length_cons, List.drop_succ_cons]
        cancel
        rw [hr]; ext <;> simp <;> omega

theorem partitionCopy_spec {pred : V → Bool} (h : Rng P c i vs) (hl : (vs.filter pred).length ≤ us.length) (hl' : (vs.filter fun v => !pred v).length ≤ ws.length) :
    Triple nf (P ∗ seg d j us ∗ seg e k ws) (partitionCopy c i (i + vs.length) d j e k pred)
      (fun r => ⌜r = (vs.length, j + (vs.filter pred).length, k + (vs.filter fun v => !pred v).length)⌝ ∗ P ∗
        seg d j (over us (vs.filter pred)) ∗ seg e k (over ws (vs.filter fun v => !pred v))) := by
  have := partitionCopyLoop_spec (nf := nf) (n := 0) (d := d) (e := e) (j := j) (k := k) h hl hl'
  simp only [Nat.zero_add] at this
  exact this

end CC.Algo
