import Verif.Adapter.Spec
/-!
# Specifications of the adapter functions
-/
namespace CC.Adapter
open CC CC.Tac CC.Algo
variable {V α β : Type} {nf : Prop} {E : Types V} {k : Kind} {a b ty : Nat} {ws : List V}

/-- the backend object `b` of kind `k` holding the sequence `ws` -/
def isBack (E : Types V) (nf : Prop) (k : Kind) (b ty : Nat) (ws : List V) : HProp V :=
  ∃ₛ impl, blk b 2 ∗ fld b 1 k.addr ∗ fld b 2 impl ∗ (kindSpec E nf k).rep ty impl ws

/-- the stack or queue object `a` with a backend of kind `k` holding the sequence `ws` -/
def isAd (E : Types V) (nf : Prop) (k : Kind) (a ty : Nat) (ws : List V) : HProp V :=
  ∃ₛ b, blk a 1 ∗ fld a 1 b ∗ isBack E nf k b ty ws

theorem createBackend_spec (hty : ty ≠ 0) :
    Triple nf emp (createBackend E k ty) (fun r => ⌜r = 0 → ¬ nf⌝ ∗ if r = 0 then emp else isBack E nf k r ty []) := by
  unfold createBackend
  apply mallocS2
  · intro h
    rw [if_pos rfl]
    apply Triple.ret
    rw [if_pos rfl]
    cancel
    exact fun _ => h
  intro b x y hb
  rw [if_neg hb]
  call ((kindSpec E nf k).create_spec ty hty)
  intro r
  xintro hr
  step
  by_cases h0 : r = 0
  · rw [if_pos h0, if_pos h0]
    call free2
    intro _
    apply Triple.ret
    rw [if_pos rfl]
    cancel
    exact fun _ => hr h0
  · rw [if_neg h0, if_neg h0]
    steps
    apply Triple.ret
    rw [if_neg hb]
    unfold isBack
    xexists r
    cancel
    exact fun h => absurd h hb

theorem addr_ne (k : Kind) : k.addr ≠ 0 := by cases k <;> simp [Kind.addr]

/-- loading the table of operations -/
theorem ops_spec {P : HProp V} {Q : β → HProp V} {K : BOps V → M V β} (h : Triple nf (isBack E nf k b ty ws ∗ P) (K (wrap (k.impl E))) Q) :
    Triple nf (isBack E nf k b ty ws ∗ P) (ops E b >>= K) Q := by
  unfold ops isBack
  xintro impl
  rw [bind_assoc]
  step
  rw [if_neg (addr_ne k), tables_addr]
  rw [pure_bind]
  refine Triple.pre ?_ h
  unfold isBack
  xexists impl
  cancel

theorem back_ne {P : HProp V} {h : Heap V} (hh : (isBack E nf k b ty ws ∗ P) h) : b ≠ 0 := by
  have : (isBack E nf k b ty ws ∗ P) ⊢ₛ ∃ₛ impl, blk b 2 ∗ fld b 1 k.addr ∗ fld b 2 impl ∗ (kindSpec E nf k).rep ty impl ws ∗ P := by
    unfold isBack
    xintro impl
    xexists impl
    cancel
  obtain ⟨impl, h2⟩ := this _ hh
  exact pts_ne_zero h2

/-- an operation of the wrapper is the operation of the container -/
theorem wrap_spec {f : Addr → M V α} {g : Addr → M V α} {d : M V α} {Q : Addr → α → HProp V} {Q' : α → HProp V} {R : HProp V}
    (hg : ∀ c, g c = if c = 0 then d else do let impl ← ldN (c, 2); f impl)
    (hf : ∀ impl, Triple nf ((kindSpec E nf k).rep ty impl ws ∗ R) (f impl) (Q impl))
    (hq : ∀ impl r, (blk b 2 ∗ fld b 1 k.addr ∗ fld b 2 impl ∗ Q impl r) ⊢ₛ Q' r) :
    Triple nf (isBack E nf k b ty ws ∗ R) (g b) Q' := by
  refine Triple.fact (p := b ≠ 0) (fun h hh => back_ne hh) ?_
  intro hb
  rw [hg, if_neg hb]
  unfold isBack
  xintro impl
  step
  refine Triple.pre (P' := ((kindSpec E nf k).rep ty impl ws ∗ R) ∗ (blk b 2 ∗ fld b 1 k.addr ∗ fld b 2 impl)) (by cancel) ?_
  refine Triple.post (Triple.frame (hf impl)) ?_
  intro r
  refine ent_trans ?_ (hq impl r)
  cancel

theorem wrap_spec0 {f : Addr → M V α} {g : Addr → M V α} {d : M V α} {Q : Addr → α → HProp V} {Q' : α → HProp V}
    (hg : ∀ c, g c = if c = 0 then d else do let impl ← ldN (c, 2); f impl)
    (hf : ∀ impl, Triple nf ((kindSpec E nf k).rep ty impl ws) (f impl) (Q impl))
    (hq : ∀ impl r, (blk b 2 ∗ fld b 1 k.addr ∗ fld b 2 impl ∗ Q impl r) ⊢ₛ Q' r) :
    Triple nf (isBack E nf k b ty ws) (g b) Q' := by
  have := wrap_spec (R := emp) (E := E) (k := k) (ty := ty) (ws := ws) (b := b) hg (fun impl => by rw [sep_emp]; exact hf impl) hq
  rwa [sep_emp] at this

theorem isBack_fold {impl : Nat} : (blk b 2 ∗ fld b 1 k.addr ∗ fld b 2 impl ∗ (kindSpec E nf k).rep ty impl ws) ⊢ₛ isBack E nf k b ty ws := by
  unfold isBack
  xexists impl
  cancel

theorem peek_wrap {impl : Nat} {r : Loc} {ow : Option V} :
    (blk b 2 ∗ fld b 1 k.addr ∗ fld b 2 impl ∗ peek r ow ((kindSpec E nf k).rep ty impl ws)) ⊢ₛ peek r ow (isBack E nf k b ty ws) := by
  unfold peek
  cases ow with
  | none =>
    dsimp only
    unfold isBack
    xintro h
    xexists impl
    cancel
  | some w =>
    dsimp only
    xintro F h
    refine peek_some (F := F ∗ blk b 2 ∗ fld b 1 k.addr ∗ fld b 2 impl) h.1 (by cancel) ?_
    refine ent_trans ?_ (isBack_fold (impl := impl))
    refine ent_trans (Q := (blk b 2 ∗ fld b 1 k.addr ∗ fld b 2 impl) ∗ (pts r (.obj (some w)) ∗ F)) (by cancel) ?_
    refine ent_trans (sep_mono (ent_refl _) h.2) ?_
    cancel

theorem bdestroy_spec : Triple nf (isBack E nf k b ty ws) ((wrap (k.impl E)).destroy b) (fun _ => emp) := by
  refine Triple.fact (p := b ≠ 0) (fun h hh => back_ne (by rw [sep_emp]; exact hh)) ?_
  intro hb
  unfold wrap
  dsimp only
  rw [if_neg hb]
  unfold isBack
  xintro impl
  try rw [sep_emp]
  step
  call ((kindSpec E nf k).destroy_spec ty impl ws)
  intro _
  call free2
  intro _
  cancel

theorem bfront_spec : Triple nf (isBack E nf k b ty ws) ((wrap (k.impl E)).front b) (fun r => peek r ws.head? (isBack E nf k b ty ws)) :=
  wrap_spec0 (fun _ => rfl) (fun impl => (kindSpec E nf k).front_spec ty impl ws) fun _ _ => peek_wrap

theorem bback_spec : Triple nf (isBack E nf k b ty ws) ((wrap (k.impl E)).back b) (fun r => peek r ws.getLast? (isBack E nf k b ty ws)) :=
  wrap_spec0 (fun _ => rfl) (fun impl => (kindSpec E nf k).back_spec ty impl ws) fun _ _ => peek_wrap

theorem bempty_spec : Triple nf (isBack E nf k b ty ws) ((wrap (k.impl E)).empty b) (fun r => ⌜r = ws.isEmpty⌝ ∗ isBack E nf k b ty ws) := by
  refine wrap_spec0 (fun _ => rfl) (fun impl => (kindSpec E nf k).empty_spec ty impl ws) fun impl r => ?_
  xintro h
  refine ent_pure_right h (ent_trans ?_ (isBack_fold (impl := impl)))
  cancel

theorem bsize_spec : Triple nf (isBack E nf k b ty ws) ((wrap (k.impl E)).size b) (fun r => ⌜r = ws.length⌝ ∗ isBack E nf k b ty ws) := by
  refine wrap_spec0 (fun _ => rfl) (fun impl => (kindSpec E nf k).size_spec ty impl ws) fun impl r => ?_
  xintro h
  refine ent_pure_right h (ent_trans ?_ (isBack_fold (impl := impl)))
  cancel

theorem bpopBack_spec : Triple nf (isBack E nf k b ty ws) ((wrap (k.impl E)).popBack b) (fun _ => isBack E nf k b ty ws.dropLast) :=
  wrap_spec0 (fun _ => rfl) (fun impl => (kindSpec E nf k).popBack_spec ty impl ws) fun _ _ => isBack_fold

theorem bpushBack_spec {l : Loc} {v : V} (hl : l.1 ≠ 0) :
    Triple nf (isBack E nf k b ty ws ∗ pts l (.obj (some v))) ((wrap (k.impl E)).pushBack b l)
      (fun _ => ∃ₛ ws', ⌜ws' = ws ++ [v] ∨ (¬ nf ∧ ws' = ws)⌝ ∗ isBack E nf k b ty ws' ∗ pts l (.obj (some v))) := by
  refine wrap_spec (d := pure ()) (g := fun c => (wrap (k.impl E)).pushBack c l) (fun c => ?_) (fun impl => (kindSpec E nf k).pushBack_spec ty impl ws l v hl) ?_
  · simp only [wrap, hl, or_false]
  intro impl _
  xintro ws' h
  xexists ws'
  refine ent_trans (Q := ⌜ws' = ws ++ [v] ∨ (¬ nf ∧ ws' = ws)⌝ ∗ (blk b 2 ∗ fld b 1 k.addr ∗ fld b 2 impl ∗ (kindSpec E nf k).rep ty impl ws') ∗ pts l (.obj (some v)))
    (by cancel) ?_
  refine ent_trans (sep_mono (ent_refl _) (sep_mono (isBack_fold (impl := impl)) (ent_refl _))) ?_
  cancel

theorem bpopFront_spec (hk : k ≠ .vector) :
    Triple nf (isBack E nf k b ty ws) (callFn (wrap (k.impl E)).popFront fun f => f b) (fun _ => isBack E nf k b ty ws.tail) := by
  obtain ⟨f, hf⟩ : ∃ f, (k.impl E).popFront = some f := by
    cases k with
    | vector => exact absurd rfl hk
    | list => exact ⟨_, rfl⟩
    | deque => exact ⟨_, rfl⟩
  have : (wrap (k.impl E)).popFront = some (fun c => if c = 0 then pure () else ldN (c, 2) >>= f) := by
    unfold wrap
    simp only [hf, Option.map_some]
  rw [this, callFn]
  exact wrap_spec0 (g := fun c => if c = 0 then pure () else ldN (c, 2) >>= f) (fun _ => rfl)
    (fun impl => (kindSpec E nf k).popFront_spec f hf ty impl ws) fun _ _ => isBack_fold

theorem bswap_spec {b2 ty2 : Nat} {ws2 : List V} :
    Triple nf (isBack E nf k b ty ws ∗ isBack E nf k b2 ty2 ws2) ((wrap (k.impl E)).swap b b2)
      (fun _ => isBack E nf k b ty2 ws2 ∗ isBack E nf k b2 ty ws) := by
  refine Triple.fact (p := b ≠ 0) (fun h hh => back_ne hh) ?_
  intro hb
  refine Triple.fact (p := b2 ≠ 0) (fun h hh => back_ne (by rw [sep_comm] at hh; exact hh)) ?_
  intro hb2
  unfold wrap
  dsimp only
  rw [if_neg (by simp [hb, hb2])]
  unfold isBack
  xintro impl impl2
  steps
  call ((kindSpec E nf k).swap_spec ty impl ws ty2 impl2 ws2)
  intro _
  steps
  apply Triple.ret
  xexists impl, impl2
  cancel

theorem brange_spec (hk : k ≠ .list) :
    Triple nf (isBack E nf k b ty ws) ((wrap (k.impl E)).range b) (fun r => ∃ₛ c, ∃ₛ F, ⌜r = some (c, 0, ws.length) ∧
      ∀ ws' : List V, ws'.length = ws.length → ((seg c 0 ws' ∗ F) ⊢ₛ isBack E nf k b ty ws')⌝ ∗ seg c 0 ws ∗ F) := by
  have hr : RangeSpec (kindSpec E nf k) := by
    cases k with
    | list => exact absurd rfl hk
    | vector => exact vecRange
    | deque => exact deqRange
  refine wrap_spec0 (fun _ => rfl) (fun impl => hr ty impl ws) ?_
  intro impl r
  xintro c F h
  xexists c, F ∗ blk b 2 ∗ fld b 1 k.addr ∗ fld b 2 impl
  cancel
  refine ⟨h.1, fun ws' hw => ?_⟩
  refine ent_trans ?_ (isBack_fold (impl := impl))
  refine ent_trans (Q := (blk b 2 ∗ fld b 1 k.addr ∗ fld b 2 impl) ∗ (seg c 0 ws' ∗ F)) (by cancel) ?_
  refine ent_trans (sep_mono (ent_refl _) (h.2 ws' hw)) ?_
  cancel

/-! ## the adapter functions -/

theorem ad_ne {P : HProp V} {h : Heap V} (hh : (isAd E nf k a ty ws ∗ P) h) : a ≠ 0 := by
  have : (isAd E nf k a ty ws ∗ P) ⊢ₛ ∃ₛ b, blk a 1 ∗ fld a 1 b ∗ isBack E nf k b ty ws ∗ P := by
    unfold isAd
    xintro b
    xexists b
    cancel
  obtain ⟨b, h2⟩ := this _ hh
  exact pts_ne_zero h2

theorem mallocS1 {P : HProp V} {Q : β → HProp V} {K : Addr → M V β} (hfail : ¬ nf → Triple nf P (K 0) Q)
    (hok : ∀ a x, a ≠ 0 → Triple nf (blk a 1 ∗ fld a 1 x ∗ P) (K a) Q) : Triple nf P (mallocS 1 >>= K) Q :=
  Triple.mallocG_spec hfail fun a j h => by
    simpa [arr, List.range_succ, sep_assoc] using hok a (j 1) h

theorem create_spec (hty : ty ≠ 0) :
    Triple nf emp (create E ty (some k)) (fun r => ⌜r = 0 → ¬ nf⌝ ∗ if r = 0 then emp else isAd E nf k r ty []) := by
  unfold create
  dsimp only
  rw [if_neg hty]
  apply mallocS1
  · intro h
    rw [if_pos rfl]
    apply Triple.ret
    rw [if_pos rfl]
    cancel
    exact fun _ => h
  intro a x ha
  rw [if_neg ha]
  call (createBackend_spec (E := E) (k := k) hty)
  intro r
  xintro hr
  step
  by_cases h0 : r = 0
  · rw [if_pos h0, if_pos h0]
    call free1
    intro _
    apply Triple.ret
    rw [if_pos rfl]
    cancel
    exact fun _ => hr h0
  · rw [if_neg h0, if_neg h0]
    apply Triple.ret
    rw [if_neg ha]
    unfold isAd
    xexists r
    cancel
    exact fun h => absurd h ha

/-- an adapter function forwards to the operation of the backend -/
theorem fwd_spec {m : Addr → BOps V → M V α} {g d : M V α} {Q : Addr → α → HProp V} {Q' : α → HProp V} {R : HProp V}
    (hg : g = if a = 0 then d else do let b ← ldN (a, 1); let o ← ops E b; m b o)
    (hf : ∀ b, Triple nf (isBack E nf k b ty ws ∗ R) (m b (wrap (k.impl E))) (Q b))
    (hq : ∀ b r, (blk a 1 ∗ fld a 1 b ∗ Q b r) ⊢ₛ Q' r) :
    Triple nf (isAd E nf k a ty ws ∗ R) g Q' := by
  refine Triple.fact (p := a ≠ 0) (fun h hh => ad_ne hh) ?_
  intro ha
  rw [hg, if_neg ha]
  unfold isAd
  xintro b
  step
  refine Triple.pre (P' := isBack E nf k b ty ws ∗ (R ∗ blk a 1 ∗ fld a 1 b)) (by cancel) ?_
  apply ops_spec
  refine Triple.pre (P' := (isBack E nf k b ty ws ∗ R) ∗ (blk a 1 ∗ fld a 1 b)) (by cancel) ?_
  refine Triple.post (Triple.frame (hf b)) ?_
  intro r
  refine ent_trans ?_ (hq b r)
  cancel

theorem fwd_spec0 {m : Addr → BOps V → M V α} {g d : M V α} {Q : Addr → α → HProp V} {Q' : α → HProp V}
    (hg : g = if a = 0 then d else do let b ← ldN (a, 1); let o ← ops E b; m b o)
    (hf : ∀ b, Triple nf (isBack E nf k b ty ws) (m b (wrap (k.impl E))) (Q b))
    (hq : ∀ b r, (blk a 1 ∗ fld a 1 b ∗ Q b r) ⊢ₛ Q' r) :
    Triple nf (isAd E nf k a ty ws) g Q' := by
  have := fwd_spec (R := emp) (E := E) (k := k) (ty := ty) (ws := ws) (a := a) hg (fun b => by rw [sep_emp]; exact hf b) hq
  rwa [sep_emp] at this

theorem isAd_fold : (blk a 1 ∗ fld a 1 b ∗ isBack E nf k b ty ws) ⊢ₛ isAd E nf k a ty ws := by
  unfold isAd
  xexists b
  cancel

theorem peek_fwd {r : Loc} {ow : Option V} :
    (blk a 1 ∗ fld a 1 b ∗ peek r ow (isBack E nf k b ty ws)) ⊢ₛ peek r ow (isAd E nf k a ty ws) := by
  unfold peek
  cases ow with
  | none =>
    dsimp only
    unfold isAd
    xintro h
    xexists b
    cancel
  | some w =>
    dsimp only
    xintro F h
    refine peek_some (F := F ∗ blk a 1 ∗ fld a 1 b) h.1 (by cancel) ?_
    refine ent_trans ?_ (isAd_fold (b := b))
    refine ent_trans (Q := (blk a 1 ∗ fld a 1 b) ∗ (pts r (.obj (some w)) ∗ F)) (by cancel) ?_
    refine ent_trans (sep_mono (ent_refl _) h.2) ?_
    cancel

theorem destroy_spec : Triple nf (isAd E nf k a ty ws) (destroy E a) (fun _ => emp) := by
  refine Triple.fact (p := a ≠ 0) (fun h hh => ad_ne (by rw [sep_emp]; exact hh)) ?_
  intro ha
  unfold destroy isAd
  rw [if_neg ha]
  xintro b
  try rw [sep_emp]
  step
  refine Triple.pre (P' := isBack E nf k b ty ws ∗ (blk a 1 ∗ fld a 1 b)) (by cancel) ?_
  apply ops_spec
  call bdestroy_spec
  intro _
  call free1
  intro _
  cancel

theorem back_spec : Triple nf (isAd E nf k a ty ws) (back E a) (fun r => peek r ws.getLast? (isAd E nf k a ty ws)) :=
  fwd_spec0 (m := fun b o => o.back b) rfl (fun _ => bback_spec) fun _ _ => peek_fwd

theorem front_spec : Triple nf (isAd E nf k a ty ws) (front E a) (fun r => peek r ws.head? (isAd E nf k a ty ws)) :=
  fwd_spec0 (m := fun b o => o.front b) rfl (fun _ => bfront_spec) fun _ _ => peek_fwd

theorem empty_spec : Triple nf (isAd E nf k a ty ws) (empty E a) (fun r => ⌜r = ws.isEmpty⌝ ∗ isAd E nf k a ty ws) := by
  refine fwd_spec0 (m := fun b o => o.empty b) rfl (fun _ => bempty_spec) fun b r => ?_
  xintro h
  refine ent_pure_right h (ent_trans ?_ (isAd_fold (b := b)))
  cancel

theorem size_spec : Triple nf (isAd E nf k a ty ws) (size E a) (fun r => ⌜r = ws.length⌝ ∗ isAd E nf k a ty ws) := by
  refine fwd_spec0 (m := fun b o => o.size b) rfl (fun _ => bsize_spec) fun b r => ?_
  xintro h
  refine ent_pure_right h (ent_trans ?_ (isAd_fold (b := b)))
  cancel

theorem popB_spec : Triple nf (isAd E nf k a ty ws) (popB E a) (fun _ => isAd E nf k a ty ws.dropLast) :=
  fwd_spec0 (m := fun b o => o.popBack b) rfl (fun _ => bpopBack_spec) fun _ _ => isAd_fold

theorem popF_spec (hk : k ≠ .vector) : Triple nf (isAd E nf k a ty ws) (popF E a) (fun _ => isAd E nf k a ty ws.tail) :=
  fwd_spec0 (m := fun b o => callFn o.popFront fun f => f b) rfl (fun _ => bpopFront_spec hk) fun _ _ => isAd_fold

theorem push_spec {l : Loc} {v : V} (hl : l.1 ≠ 0) :
    Triple nf (isAd E nf k a ty ws ∗ pts l (.obj (some v))) (push E a l)
      (fun _ => ∃ₛ ws', ⌜ws' = ws ++ [v] ∨ (¬ nf ∧ ws' = ws)⌝ ∗ isAd E nf k a ty ws' ∗ pts l (.obj (some v))) := by
  refine fwd_spec (m := fun b o => o.pushBack b l) (d := pure ()) ?_ (fun b => bpushBack_spec hl) fun b r => ?_
  · unfold push
    simp only [hl, or_false]
  xintro ws' h
  xexists ws'
  unfold isAd
  xexists b
  cancel

theorem swap_spec {a2 ty2 : Nat} {ws2 : List V} :
    Triple nf (isAd E nf k a ty ws ∗ isAd E nf k a2 ty2 ws2) (swap E a a2)
      (fun _ => isAd E nf k a ty2 ws2 ∗ isAd E nf k a2 ty ws) := by
  refine Triple.fact (p := a ≠ 0) (fun h hh => ad_ne hh) ?_
  intro ha
  refine Triple.fact (p := a2 ≠ 0) (fun h hh => ad_ne (by rw [sep_comm] at hh; exact hh)) ?_
  intro ha2
  unfold swap isAd
  rw [if_neg (by simp [ha, ha2])]
  xintro b b2
  steps
  refine Triple.pre (P' := isBack E nf k b ty ws ∗ (isBack E nf k b2 ty2 ws2 ∗ blk a 1 ∗ fld a 1 b ∗ blk a2 1 ∗ fld a2 1 b2)) (by cancel) ?_
  apply ops_spec
  call bswap_spec
  intro _
  xexists b, b2
  cancel

end CC.Adapter
