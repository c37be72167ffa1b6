import Verif.Adapter.Time3
import Verif.Props.CAlgoCost
/-!
# The time of whole lives of priority queues
-/
namespace CC.Adapter
open CC CC.Tac CC.Algo
variable {V α β : Type} {E : Types V} {k : Kind} {a b ty comp : Nat} {ws : List V} {R X : HProp V} {p n : Nat} {ρ : Loc → V} {F : Nat → V → V → Bool}

theorem wrap_range {b impl : Nat} (hk : k ≠ .list) :
    PT (p + 3) ((blk b 2 ∗ fld b 1 k.addr ∗ fld b 2 impl) ∗ tRep E k ty impl ws p) ((wrap (k.impl E)).range b) (fun r q => ∃ₛ c, ∃ₛ G, ⌜q = p ∧ r = some (c, 0, ws.length) ∧
      ∀ ws' : List V, ws'.length = ws.length → ((seg c 0 ws' ∗ G) ⊢ₛ (blk b 2 ∗ fld b 1 k.addr ∗ fld b 2 impl) ∗ tRep E k ty impl ws' p)⌝ ∗ seg c 0 ws ∗ G) := by
  refine PT.fact (φ := b ≠ 0) (fun F m hm => by rw [sep_assoc, sep_assoc] at hm; exact pts_ne_zero hm) fun hb => ?_
  unfold wrap
  simp only [hb, if_false]
  refine PT.pre (P' := pts (b, 2) (.num impl) ∗ (blk b 2 ∗ fld b 1 k.addr ∗ tRep E k ty impl ws p)) (by cancel) ?_
  refine PT.ld (p := p + 2) ?_
  refine PT.pre (P' := tRep E k ty impl ws p ∗ (blk b 2 ∗ fld b 1 k.addr ∗ fld b 2 impl)) (by cancel) ?_
  refine PT.post (PT.frame (trange hk)) fun r q => ?_
  rw [hex_sep]
  refine ent_ex_left fun c => ?_
  rw [hex_sep]
  refine ent_ex_left fun G => ?_
  rw [sep_assoc]
  refine ent_pure_left fun h => ?_
  refine ent_ex_right c (ent_ex_right (G ∗ (blk b 2 ∗ fld b 1 k.addr ∗ fld b 2 impl)) (ent_pure_right ⟨h.1, h.2.1, fun ws' hw => ?_⟩ ?_))
  · refine ent_trans (Q := (seg c 0 ws' ∗ G) ∗ (blk b 2 ∗ fld b 1 k.addr ∗ fld b 2 impl)) (by cancel) ?_
    refine ent_trans (sep_mono (h.2.2 ws' hw) (ent_refl _)) ?_
    cancel
  · cancel

/-- an operation of the heap on the elements of the container -/
theorem heap_step {b impl : Nat} {m : Nat → Slots → Nat → Nat → M V Unit} {K : M V β} {Q : β → Nat → HProp V} {S : List V → Prop} {c x : Nat} (hk : k ≠ .list)
    (hm : ∀ d, TripleC True (seg d 0 ws) (m comp d 0 ws.length) (fun _ => ∃ₛ ws', ⌜ws'.length = ws.length ∧ S ws'⌝ ∗ seg d 0 ws') c)
    (h : ∀ ws', S ws' → PT (p + x) ((fld a 1 b ∗ (blk a 2 ∗ fld a 2 comp) ∗ blk b 2 ∗ fld b 1 k.addr ∗ fld b 2 impl) ∗ (tRep E k ty impl ws' p ∗ R)) K Q) :
    PT (p + (c + 4 + x)) ((fld a 1 b ∗ (blk a 2 ∗ fld a 2 comp) ∗ blk b 2 ∗ fld b 1 k.addr ∗ fld b 2 impl) ∗ (tRep E k ty impl ws p ∗ R)) (do
      let r ← (wrap (k.impl E)).range b
      let cmp ← ldN (a, 2)
      heapCall r (m cmp)
      K) Q := by
  refine PT.pre (P' := ((blk b 2 ∗ fld b 1 k.addr ∗ fld b 2 impl) ∗ tRep E k ty impl ws p) ∗ (fld a 1 b ∗ blk a 2 ∗ fld a 2 comp ∗ R)) (by cancel) ?_
  refine PT.bind (PT.frame (PT.more (c + 1 + x) (wrap_range hk) (by omega))) fun r q => ?_
  rw [hex_sep]
  refine PT.ex_left fun q0 => ?_
  rw [sep_assoc]
  refine PT.pure_left fun hq => ?_
  rw [hex_sep]
  refine PT.ex_left fun d => ?_
  rw [hex_sep]
  refine PT.ex_left fun G => ?_
  rw [sep_assoc]
  refine PT.pure_left fun hr => ?_
  rw [hq, hr.1, hr.2.1]
  refine PT.pre (P' := pts (a, 2) (.num comp) ∗ (seg d 0 ws ∗ G ∗ fld a 1 b ∗ blk a 2 ∗ R)) (by cancel) ?_
  refine PT.slack (p := (p + c + x) + 1) (by omega) (PT.ld ?_)
  unfold heapCall
  dsimp only
  refine PT.pre (P' := seg d 0 ws ∗ (G ∗ fld a 1 b ∗ blk a 2 ∗ fld a 2 comp ∗ R)) (by cancel) ?_
  refine PT.bind (PT.frame (PT.of (p := p + x) (Q' := fun _ q => ⌜q = p + x⌝ ∗ ∃ₛ ws', ⌜ws'.length = ws.length ∧ S ws'⌝ ∗ seg d 0 ws') (hm d) (by omega) fun _ => ent_pure_right rfl (ent_refl _)))
    fun _ q => ?_
  rw [sep_assoc]
  refine PT.pure_left fun hq => ?_
  rw [hq, hex_sep]
  refine PT.ex_left fun ws' => ?_
  rw [sep_assoc]
  refine PT.pure_left fun hw => ?_
  refine PT.pre ?_ (h ws' hw.2)
  refine ent_trans (Q := (seg d 0 ws' ∗ G) ∗ (fld a 1 b ∗ blk a 2 ∗ fld a 2 comp ∗ R)) (by cancel) ?_
  refine ent_trans (sep_mono (hr.2.2 ws' hw.1) (ent_refl _)) ?_
  cancel

theorem push_heap_time (hsw : StrictWeak (F comp)) {v : V} (hh : IsHeap (F comp) ws) (hn : ws.length + 1 < 2 ^ (n + 1)) (d : Slots) :
    TripleC True (seg d 0 (ws ++ [v])) (pushHeap d 0 (ws ++ [v]).length (F comp))
      (fun _ => ∃ₛ ws', ⌜ws'.length = (ws ++ [v]).length ∧ IsHeap (F comp) ws' ∧ ws'.length = ws.length + 1⌝ ∗ seg d 0 ws') (4 * n + 3) := by
  have h1 := pushHeap_spec (nf := True) (c := d) (i := 0) (v := v) hsw hh
  simp only [Nat.zero_add] at h1
  rw [List.length_append, List.length_singleton]
  refine TripleC.intro (Triple.post h1 ?_) (pushHeap_cost (by omega)) (Le.refl _)
  intro _
  xintro ws' h
  xexists ws'
  cancel
  have := h.1.length_eq
  rw [List.length_append, List.length_singleton] at this
  exact ⟨this, h.2, this⟩

theorem pop_heap_time (hsw : StrictWeak (F comp)) (hh : IsHeap (F comp) ws) (hn : ws.length < 2 ^ (n + 1)) (d : Slots) :
    TripleC True (seg d 0 ws) (popHeap d 0 ws.length (F comp))
      (fun _ => ∃ₛ ws', ⌜ws'.length = ws.length ∧ IsHeap (F comp) ws'.dropLast ∧ ws'.length = ws.length⌝ ∗ seg d 0 ws') (10 * n + 6) := by
  refine TripleC.intro ?_ (popHeap_cost (by omega)) (Le.refl _)
  cases ws with
  | nil =>
    unfold popHeap
    rw [if_pos (by simp)]
    apply Triple.ret
    xexists []
    cancel
    all_goals
      refine ⟨rfl, ?_, rfl⟩
      intro j a b h0 ha hb
      simp at ha
  | cons w ws =>
    have h1 := popHeap_spec (nf := True) (c := d) (i := 0) hsw hh
    simp only [Nat.zero_add] at h1
    refine Triple.post h1 ?_
    intro _
    xintro ws' h'
    xexists ws' ++ [w]
    cancel
    refine ⟨by simp [h'.1.length_eq], ?_, by simp [h'.1.length_eq]⟩
    rw [List.dropLast_concat]; exact h'.2

theorem pqPush_time (hk : k ≠ .list) (hsw : StrictWeak (F comp)) {l : Loc} (hl : l.1 ≠ 0) (hh : IsHeap (F comp) ws) {R' : HProp V} {v : V} (hR : R = (pts l (.obj (some v)) ∗ R'))
    (hn : ws.length + 1 < 2 ^ (n + 1)) :
    PT (p + (89 + 10 * n)) (tAd E k (blk a 2 ∗ fld a 2 comp) a ty ws p ∗ R) (pqPush E F a l)
      (fun _ q => ∃ₛ ws', ⌜IsHeap (F comp) ws' ∧ ws'.length = ws.length + 1⌝ ∗ tAd E k (blk a 2 ∗ fld a 2 comp) a ty ws' q ∗ R) := by
  refine PT.fact (φ := a ≠ 0) (fun F m hm => tAd_ne (by rw [sep_assoc] at hm; exact hm)) fun ha => ?_
  unfold pqPush
  rw [if_neg (by simp [ha, hl])]
  refine PT.slack (p := p + (86 + 10 * n) + 3) (by omega) ?_
  refine PT.enter (m := fun b o => do
      o.pushBack b l
      let r ← o.range b
      let comp ← ldN (a, 2)
      heapCall r fun c first last => pushHeap c first last (F comp)) (K := fun b impl => do
      (k.impl E).pushBack impl l
      let r ← (wrap (k.impl E)).range b
      let comp ← ldN (a, 2)
      heapCall r fun c first last => pushHeap c first last (F comp)) (x := p + (86 + 10 * n)) ha (fun c hc => ?_) fun b impl => ?_
  · have : (wrap (k.impl E)).pushBack c l = (ldN (c, 2) >>= fun impl => (k.impl E).pushBack impl l) := by
      unfold wrap
      simp only [hc, hl, or_self, if_false]
    rw [this, bind_assoc]
  · rw [hR]
    refine PT.pre (P' := (tRep E k ty impl ws p ∗ pts l (.obj (some v))) ∗ (fld a 1 b ∗ (blk a 2 ∗ fld a 2 comp) ∗ blk b 2 ∗ fld b 1 k.addr ∗ fld b 2 impl) ∗ R') (by cancel) ?_
    refine PT.bind (PT.frame (PT.more (7 + 10 * n) (tpushBack hl) (by omega))) fun _ q => ?_
    rw [hex_sep]
    refine PT.ex_left fun q0 => ?_
    rw [sep_assoc]
    refine PT.pure_left fun hq => ?_
    rw [hq]
    refine PT.pre (P' := (fld a 1 b ∗ (blk a 2 ∗ fld a 2 comp) ∗ blk b 2 ∗ fld b 1 k.addr ∗ fld b 2 impl) ∗ (tRep E k ty impl (ws ++ [v]) q0 ∗ (pts l (.obj (some v)) ∗ R'))) (by cancel) ?_
    have := heap_step (E := E) (k := k) (ty := ty) (a := a) (b := b) (impl := impl) (comp := comp) (p := q0) (x := 0) (R := pts l (.obj (some v)) ∗ R')
      (m := fun comp c first last => pushHeap c first last (F comp)) (K := pure ())
      (Q := fun _ q => ∃ₛ ws', ⌜IsHeap (F comp) ws' ∧ ws'.length = ws.length + 1⌝ ∗ tAd E k (blk a 2 ∗ fld a 2 comp) a ty ws' q ∗ (pts l (.obj (some v)) ∗ R')) hk
      (push_heap_time (v := v) hsw hh hn) (fun ws' hw => PT.ret (ent_ex_right ws' (ent_pure_right hw tAd_fold)))
    refine PT.slack (p := q0 + (4 * n + 3 + 4 + 0)) (by omega) ?_
    have hu : ∀ m : M V Unit, (m >>= fun _ => pure ()) = m := fun m => bind_pure m
    simpa only [hu] using this

/-- the two loads that lead from the adapter to the operations of its backend -/
theorem PT.enter2 {m : Addr → BOps V → M V α} {Q : α → Nat → HProp V} {x : Nat}
    (h : ∀ b impl, b ≠ 0 → PT x ((fld a 1 b ∗ X ∗ blk b 2 ∗ fld b 1 k.addr ∗ fld b 2 impl) ∗ tRep E k ty impl ws p ∗ R) (m b (wrap (k.impl E))) Q) :
    PT (x + 2) (tAd E k X a ty ws p ∗ R) (do let b ← ldN (a, 1); let o ← ops E b; m b o) Q := by
  unfold tAd
  rw [hex_sep]
  refine PT.ex_left fun b => ?_
  rw [hex_sep]
  refine PT.ex_left fun impl => ?_
  refine PT.pre (P' := pts (a, 1) (.num b) ∗ (X ∗ blk b 2 ∗ fld b 1 k.addr ∗ fld b 2 impl ∗ tRep E k ty impl ws p ∗ R)) (by cancel) ?_
  refine PT.ld (p := x + 1) ?_
  unfold ops
  rw [bind_assoc]
  refine PT.pre (P' := pts (b, 1) (.num k.addr) ∗ (fld a 1 b ∗ X ∗ blk b 2 ∗ fld b 2 impl ∗ tRep E k ty impl ws p ∗ R)) (by cancel) ?_
  refine PT.ld (p := x) ?_
  rw [if_neg (addr_ne k), tables_addr, pure_bind]
  refine PT.fact (φ := b ≠ 0) (fun F m hm => by rw [sep_assoc] at hm; exact pts_ne_zero hm) fun hb => ?_
  refine PT.pre ?_ (h b impl hb)
  cancel

theorem pqPop_time (hk : k ≠ .list) (hsw : StrictWeak (F comp)) (hh : IsHeap (F comp) ws) (hn : ws.length < 2 ^ (n + 1)) :
    PT (p + (89 + 10 * n)) (tAd E k (blk a 2 ∗ fld a 2 comp) a ty ws p ∗ R) (pqPop E F a)
      (fun _ q => ∃ₛ ws', ⌜IsHeap (F comp) ws' ∧ ws'.length = ws.length - 1⌝ ∗ tAd E k (blk a 2 ∗ fld a 2 comp) a ty ws' q ∗ R) := by
  refine PT.fact (φ := a ≠ 0) (fun F m hm => tAd_ne (by rw [sep_assoc] at hm; exact hm)) fun ha => ?_
  unfold pqPop
  rw [if_neg ha]
  refine PT.slack (p := p + (29 + 10 * n) + 2) (by omega) ?_
  refine PT.enter2 (m := fun b o => do
      let r ← o.range b
      let comp ← ldN (a, 2)
      heapCall r fun c first last => popHeap c first last (F comp)
      o.popBack b) fun b impl hb => ?_
  have h1 : (wrap (k.impl E)).popBack b = (ldN (b, 2) >>= fun impl => (k.impl E).popBack impl) := by
    unfold wrap
    simp only [hb, if_false]
  rw [h1]
  refine PT.slack (p := p + ((10 * n + 6) + 4 + 19)) (by omega) ?_
  refine heap_step (m := fun comp c first last => popHeap c first last (F comp)) (x := 19) hk (pop_heap_time hsw hh hn) fun ws' hw => ?_
  refine PT.pre (P' := pts (b, 2) (.num impl) ∗ (fld a 1 b ∗ (blk a 2 ∗ fld a 2 comp) ∗ blk b 2 ∗ fld b 1 k.addr ∗ tRep E k ty impl ws' p ∗ R)) (by cancel) ?_
  refine PT.ld (p := p + 18) ?_
  refine PT.pre (P' := tRep E k ty impl ws' p ∗ ((fld a 1 b ∗ (blk a 2 ∗ fld a 2 comp) ∗ blk b 2 ∗ fld b 1 k.addr ∗ fld b 2 impl) ∗ R)) (by cancel) ?_
  refine PT.post (PT.frame tpopBack) fun _ q => ?_
  refine ent_ex_right ws'.dropLast (ent_pure_right ⟨hw.1, by rw [List.length_dropLast, hw.2]⟩ ?_)
  refine ent_trans ?_ (tAd_fold (b := b) (impl := impl))
  cancel

/-- the invariant with `r` operations still to come -/
def pqInv (E : Types V) (k : Kind) (F : Nat → V → V → Bool) (a ty comp N : Nat) (R : HProp V) (r p : Nat) : HProp V :=
  ∃ₛ ws, ⌜IsHeap (F comp) ws ∧ ws.length + r ≤ N⌝ ∗ tAd E k (blk a 2 ∗ fld a 2 comp) a ty ws p ∗ R

theorem pqOp_time {o : PqOp Loc} {N r : Nat} (hk : k ≠ .list) (hsw : StrictWeak (F comp)) (hn : N < 2 ^ (n + 1))
    (ho : ∀ l, o = .push l → l.1 ≠ 0 ∧ ∃ R', R = (pts l (.obj (some (ρ l))) ∗ R')) :
    PT (p + (89 + 10 * n)) (pqInv E k F a ty comp N R (r + 1) p) (runPqOp E F a o) (fun _ q => pqInv E k F a ty comp N R r q) := by
  unfold pqInv
  refine PT.ex_left fun ws => PT.pure_left fun ⟨hh, hl⟩ => ?_
  have hself : ∀ q, (tAd E k (blk a 2 ∗ fld a 2 comp) a ty ws q ∗ R) ⊢ₛ ∃ₛ ws', ⌜IsHeap (F comp) ws' ∧ ws'.length + r ≤ N⌝ ∗ tAd E k (blk a 2 ∗ fld a 2 comp) a ty ws' q ∗ R :=
    fun q => ent_ex_right ws (ent_pure_right ⟨hh, by omega⟩ (ent_refl _))
  cases o with
  | push l =>
    obtain ⟨h0, R', hR⟩ := ho l rfl
    refine PT.done (b := fun _ => Out.done) (pqPush_time hk hsw h0 hh hR (by omega)) fun _ q => ?_
    exact ent_ex_left fun ws' => ent_pure_left fun h => ent_ex_right ws' (ent_pure_right ⟨h.1, by omega⟩ (ent_refl _))
  | pop =>
    refine PT.done (b := fun _ => Out.done) (pqPop_time hk hsw hh (by omega)) fun _ q => ?_
    exact ent_ex_left fun ws' => ent_pure_left fun h => ent_ex_right ws' (ent_pure_right ⟨h.1, by omega⟩ (ent_refl _))
  | top => exact PT.slack (p := p + 10) (by omega) (PT.post (tAd_look tAd_front) fun _ q => hself q)
  | empty => exact PT.slack (by omega) (PT.done (tAd_empty (p := p)) fun _ q => hself q)
  | size => exact PT.slack (by omega) (PT.done (tAd_size (p := p) hk) fun _ q => hself q)

theorem pq_life {less : Nat → Nat} (hk : k ≠ .list) (hty : ty ≠ 0) (hsw : StrictWeak (F (if comp ≠ 0 then comp else less ty))) (os : List (PqOp Loc))
    (hargs : Args ρ R (pqArgs os)) (hn : os.length < 2 ^ (n + 1)) :
    PT ((89 + 10 * n) * os.length + 44) R (life (pqCreate E less ty (some k) comp) (runPqOp E F) (destroy E) os) (fun _ _ => R) := by
  refine PT.life (J := fun a r p => pqInv E k F a ty (if comp ≠ 0 then comp else less ty) os.length R r p) (d0 := 18) (d1 := 26) (tcreatePq hty) pqCreate_cost (fun a => ?_) (fun a o ho r p => ?_) fun a p => ?_
  · refine ent_ex_right [] (ent_pure_right ⟨?_, by simp⟩ (ent_refl _))
    intro j a b h0 ha hb
    simp at ha
  · exact pqOp_time hk hsw hn fun l hl => hargs l (by subst hl; exact List.mem_flatMap.2 ⟨_, ho, by simp⟩)
  · exact PT.ex_left fun ws => PT.pure_left fun _ => tAd_destroy fun b => Triple.pre (by cancel) free2

end CC.Adapter
