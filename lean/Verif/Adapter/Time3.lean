import Verif.Adapter.Time2
/-!
# The time of whole lives of adapters
-/
namespace CC.Adapter
open CC CC.Tac CC.Algo
variable {V α β : Type} {E : Types V} {k : Kind} {a b ty : Nat} {ws : List V} {R X : HProp V} {p : Nat} {ρ : Loc → V}

/-- the adapter `a` with a backend of kind `k` that holds `ws` and `p` credits; `X` is the rest of the adapter object -/
def tAd (E : Types V) (k : Kind) (X : HProp V) (a ty : Nat) (ws : List V) (p : Nat) : HProp V :=
  ∃ₛ b, ∃ₛ impl, fld a 1 b ∗ X ∗ blk b 2 ∗ fld b 1 k.addr ∗ fld b 2 impl ∗ tRep E k ty impl ws p

theorem tAd_le {q : Nat} (h : p ≤ q) : tAd E k X a ty ws p ⊢ₛ tAd E k X a ty ws q := by
  unfold tAd
  xintro b impl
  xexists b, impl
  refine ent_trans (Q := tRep E k ty impl ws p ∗ fld a 1 b ∗ X ∗ blk b 2 ∗ fld b 1 k.addr ∗ fld b 2 impl) (by cancel) ?_
  refine ent_trans (sep_mono (tRep_le h) (ent_refl _)) ?_
  cancel

theorem tcreateBackend (hty : ty ≠ 0) :
    Triple True emp (createBackend E k ty) (fun r => ⌜r ≠ 0⌝ ∗ ∃ₛ impl, blk r 2 ∗ fld r 1 k.addr ∗ fld r 2 impl ∗ tRep E k ty impl [] 0) := by
  unfold createBackend
  apply mallocS2
  · exact fun h => absurd trivial h
  intro b x y hb
  rw [if_neg hb]
  call (tcreate (E := E) (k := k) hty)
  intro r
  xintro hr
  step
  rw [if_neg hr]
  steps
  apply Triple.ret
  refine ent_pure_right hb ?_
  xexists r
  cancel

theorem tcreateAd (hty : ty ≠ 0) : Triple True emp (create E ty (some k)) (fun r => ⌜r ≠ 0⌝ ∗ tAd E k (blk r 1) r ty [] 0) := by
  unfold create
  dsimp only
  rw [if_neg hty]
  apply mallocS1
  · exact fun h => absurd trivial h
  intro a x ha
  rw [if_neg ha]
  call (tcreateBackend (E := E) (k := k) hty)
  intro r
  xintro hr impl
  step
  rw [if_neg hr]
  apply Triple.ret
  unfold tAd
  refine ent_pure_right ha ?_
  xexists r, impl
  cancel

theorem tcreatePq {less : Nat → Nat} {comp : Nat} (hty : ty ≠ 0) : Triple True emp (pqCreate E less ty (some k) comp)
    (fun r => ⌜r ≠ 0⌝ ∗ tAd E k (blk r 2 ∗ fld r 2 (if comp ≠ 0 then comp else less ty)) r ty [] 0) := by
  unfold pqCreate
  dsimp only
  rw [if_neg hty]
  apply mallocS2
  · exact fun h => absurd trivial h
  intro a x y ha
  rw [if_neg ha]
  call (tcreateBackend (E := E) (k := k) hty)
  intro r
  xintro hr impl
  step
  rw [if_neg hr]
  step
  apply Triple.ret
  unfold tAd
  refine ent_pure_right ha ?_
  xexists r, impl
  cancel

theorem createBackend_cost : Cost (createBackend E k ty) 14 := by
  unfold createBackend
  refine Cost.mono (Cost.bind (c := 1) (d := 13) (Cost.mallocS 2) fun b => ?_) (Nat.le_refl _)
  refine Cost.mono (Cost.ite (Cost.pure _) (Cost.bind (c := 10) (d := 3) tcreate_cost fun i => ?_)) (by simp)
  cost

theorem create_cost : Cost (create E ty (some k)) 18 := by
  unfold create
  dsimp only
  refine Cost.mono (Cost.ite (Cost.pure _) (Cost.bind (c := 1) (d := 17) (Cost.mallocS 1) fun b => ?_)) (by simp)
  refine Cost.mono (Cost.ite (Cost.pure _) (Cost.bind (c := 14) (d := 3) createBackend_cost fun i => ?_)) (by simp)
  cost

theorem pqCreate_cost {less : Nat → Nat} {comp : Nat} : Cost (pqCreate E less ty (some k) comp) 18 := by
  unfold pqCreate
  dsimp only
  refine Cost.mono (Cost.ite (Cost.pure _) (Cost.bind (c := 1) (d := 17) (Cost.mallocS 2) fun b => ?_)) (by simp)
  refine Cost.mono (Cost.ite (Cost.pure _) (Cost.bind (c := 14) (d := 3) createBackend_cost fun i => ?_)) (by simp)
  cost

theorem tAd_ne {F : HProp V} {h : Heap V} (hh : (tAd E k X a ty ws p ∗ F) h) : a ≠ 0 := by
  have : (tAd E k X a ty ws p ∗ F) ⊢ₛ ∃ₛ b, ∃ₛ impl, fld a 1 b ∗ X ∗ blk b 2 ∗ fld b 1 k.addr ∗ fld b 2 impl ∗ tRep E k ty impl ws p ∗ F := by
    unfold tAd
    xintro b impl
    xexists b, impl
    cancel
  obtain ⟨b, impl, h2⟩ := this _ hh
  exact pts_ne_zero h2

/-- the three loads that lead from the adapter to the container -/
theorem PT.enter {m : Addr → BOps V → M V α} {K : Addr → Addr → M V α} {Q : α → Nat → HProp V} {x : Nat} (ha : a ≠ 0)
    (hm : ∀ c, c ≠ 0 → m c (wrap (k.impl E)) = (ldN (c, 2) >>= K c))
    (h : ∀ b impl, PT x ((fld a 1 b ∗ X ∗ blk b 2 ∗ fld b 1 k.addr ∗ fld b 2 impl) ∗ tRep E k ty impl ws p ∗ R) (K b impl) Q) :
    PT (x + 3) (tAd E k X a ty ws p ∗ R) (do let b ← ldN (a, 1); let o ← ops E b; m b o) Q := by
  unfold tAd
  rw [hex_sep]
  refine PT.ex_left fun b => ?_
  rw [hex_sep]
  refine PT.ex_left fun impl => ?_
  refine PT.pre (P' := pts (a, 1) (.num b) ∗ (X ∗ blk b 2 ∗ fld b 1 k.addr ∗ fld b 2 impl ∗ tRep E k ty impl ws p ∗ R)) (by cancel) ?_
  refine PT.ld (p := x + 2) ?_
  unfold ops
  rw [bind_assoc]
  refine PT.pre (P' := pts (b, 1) (.num k.addr) ∗ (fld a 1 b ∗ X ∗ blk b 2 ∗ fld b 2 impl ∗ tRep E k ty impl ws p ∗ R)) (by cancel) ?_
  refine PT.ld (p := x + 1) ?_
  rw [if_neg (addr_ne k), tables_addr, pure_bind]
  refine PT.fact (φ := b ≠ 0) (fun F m hm => by rw [sep_assoc] at hm; exact pts_ne_zero hm) fun hb => ?_
  rw [hm b hb]
  refine PT.pre (P' := pts (b, 2) (.num impl) ∗ (fld a 1 b ∗ X ∗ blk b 2 ∗ fld b 1 k.addr ∗ tRep E k ty impl ws p ∗ R)) (by cancel) ?_
  refine PT.ld (p := x) ?_
  refine PT.pre ?_ (h b impl)
  cancel

theorem tAd_fold {impl : Nat} : (fld a 1 b ∗ X ∗ blk b 2 ∗ fld b 1 k.addr ∗ fld b 2 impl) ∗ (tRep E k ty impl ws p ∗ R) ⊢ₛ tAd E k X a ty ws p ∗ R := by
  unfold tAd
  rw [hex_sep]
  refine ent_ex_right b ?_
  rw [hex_sep]
  refine ent_ex_right impl ?_
  cancel

/-- an adapter function that forwards to the operation `f` of the container -/
theorem PT.fwd {m : Addr → BOps V → M V α} {g d : M V α} {f : Addr → M V α} {ws' : List V} {x : Nat}
    (hg : g = if a = 0 then d else do let b ← ldN (a, 1); let o ← ops E b; m b o)
    (hm : ∀ c, c ≠ 0 → m c (wrap (k.impl E)) = (ldN (c, 2) >>= f))
    (hf : ∀ impl, PT x (tRep E k ty impl ws p ∗ R) (f impl) (fun _ q => tRep E k ty impl ws' q ∗ R)) :
    PT (x + 3) (tAd E k X a ty ws p ∗ R) g (fun _ q => tAd E k X a ty ws' q ∗ R) := by
  refine PT.fact (φ := a ≠ 0) (fun F m hm => tAd_ne (by rw [sep_assoc] at hm; exact hm)) fun ha => ?_
  rw [hg, if_neg ha]
  refine PT.enter (K := fun _ => f) ha hm fun b impl => ?_
  refine PT.pre (P' := (tRep E k ty impl ws p ∗ R) ∗ (fld a 1 b ∗ X ∗ blk b 2 ∗ fld b 1 k.addr ∗ fld b 2 impl)) (by cancel) ?_
  refine PT.post (PT.frame (hf impl)) fun r q => ?_
  refine ent_trans ?_ (tAd_fold (b := b) (impl := impl))
  cancel

theorem tAd_push {l : Loc} (hl : l.1 ≠ 0) {R' : HProp V} {v : V} (hR : R = (pts l (.obj (some v)) ∗ R')) :
    PT (p + 82) (tAd E k X a ty ws p ∗ R) (push E a l) (fun _ q => tAd E k X a ty (ws ++ [v]) q ∗ R) := by
  rw [hR]
  refine PT.fwd (d := pure ()) (m := fun b o => o.pushBack b l) (f := fun i => (k.impl E).pushBack i l) (x := p + 79) ?_ (fun c hc => ?_) fun impl => ?_
  · unfold push
    simp only [hl, or_false]
  · unfold wrap
    simp only [hc, hl, or_self, if_false]
  · rw [← sep_assoc]
    refine PT.post (PT.frame (tpushBack hl)) fun _ _ => ?_
    cancel

theorem tAd_popB : PT (p + 21) (tAd E k X a ty ws p ∗ R) (popB E a) (fun _ q => tAd E k X a ty ws.dropLast q ∗ R) :=
  PT.fwd (m := fun b o => o.popBack b) (x := p + 18) rfl (fun c hc => if_neg hc) fun _ => PT.frame tpopBack

theorem tAd_popF (hk : k ≠ .vector) : PT (p + 21) (tAd E k X a ty ws p ∗ R) (popF E a) (fun _ q => tAd E k X a ty ws.tail q ∗ R) := by
  obtain ⟨f, hf⟩ : ∃ f, (k.impl E).popFront = some f := by
    cases k with
    | vector => exact absurd rfl hk
    | list => exact ⟨_, rfl⟩
    | deque => exact ⟨_, rfl⟩
  refine PT.fwd (m := fun b o => callFn o.popFront fun f => f b) (f := f) (x := p + 18) rfl (fun c hc => ?_) fun _ => PT.frame (tpopFront hf)
  unfold wrap
  simp only [hf, Option.map_some, callFn, hc, if_false]

theorem tAd_back : PT (p + 9) (tAd E k X a ty ws p ∗ R) (back E a) (fun _ q => tAd E k X a ty ws q ∗ R) :=
  PT.fwd (m := fun b o => o.back b) (x := p + 6) rfl (fun c hc => if_neg hc) fun _ => PT.frame tback
theorem tAd_front : PT (p + 9) (tAd E k X a ty ws p ∗ R) (front E a) (fun _ q => tAd E k X a ty ws q ∗ R) :=
  PT.fwd (m := fun b o => o.front b) (x := p + 6) rfl (fun c hc => if_neg hc) fun _ => PT.frame tfront
theorem tAd_empty : PT (p + 9) (tAd E k X a ty ws p ∗ R) (empty E a) (fun _ q => tAd E k X a ty ws q ∗ R) :=
  PT.fwd (m := fun b o => o.empty b) (x := p + 6) rfl (fun c hc => if_neg hc) fun _ => PT.frame tempty
theorem tAd_size (hk : k ≠ .list) : PT (p + 9) (tAd E k X a ty ws p ∗ R) (size E a) (fun _ q => tAd E k X a ty ws q ∗ R) :=
  PT.fwd (m := fun b o => o.size b) (x := p + 6) rfl (fun c hc => if_neg hc) fun _ => PT.frame (tsize hk)

theorem PT.freed {a : Addr} {m : M V β} {Q : β → Nat → HProp V} {P P' : HProp V} (hf : Triple True P (free a) (fun _ => emp)) (h : PT p P' m Q) :
    PT (p + 2) (P ∗ P') (free a >>= fun _ => m) Q := by
  refine PT.bind (Q := fun _ q => (⌜q = p⌝ ∗ emp) ∗ P') (PT.frame (PT.of (p := p) (TripleC.intro hf (Cost.free a) (Le.refl _)) (by omega) fun _ => ent_pure_right rfl (ent_refl _))) fun _ q => ?_
  rw [sep_assoc]
  refine PT.pure_left fun hq => ?_
  rw [hq, emp_sep]
  exact h

/-- destroying the adapter -/
theorem tAd_destroy (hX : ∀ b, Triple True (fld a 1 b ∗ X) (free a) (fun _ => emp)) : PT (p + 26) (tAd E k X a ty ws p ∗ R) (destroy E a) (fun _ _ => R) := by
  refine PT.fact (φ := a ≠ 0) (fun F m hm => tAd_ne (by rw [sep_assoc] at hm; exact hm)) fun ha => ?_
  unfold destroy
  rw [if_neg ha]
  refine PT.enter (m := fun b o => do o.destroy b; free a) (K := fun b impl => do (k.impl E).destroy impl; free b; free a) (x := p + 23) ha (fun c hc => ?_) fun b impl => ?_
  · unfold wrap
    simp only [hc, if_false, bind_assoc]
  refine PT.pre (P' := tRep E k ty impl ws p ∗ ((blk b 2 ∗ fld b 1 k.addr ∗ fld b 2 impl) ∗ ((fld a 1 b ∗ X) ∗ R))) (by cancel) ?_
  refine PT.bind (PT.frame (PT.more 4 tdestroy (by omega))) fun _ q => ?_
  rw [hex_sep]
  refine PT.ex_left fun q0 => ?_
  rw [sep_assoc]
  refine PT.pure_left fun hq => ?_
  rw [hq, emp_sep]
  refine PT.freed (p := q0 + 2) free2 ?_
  rw [← bind_pure (free a)]
  exact PT.freed (m := pure ()) (Q := fun _ _ => R) (hX b) (PT.ret (ent_refl _))

/-! ## histories -/

/-- `J r p`: the invariant with `r` operations still to come and `p` credits -/
theorem PT.runAll {O : Type} {f : O → M V (Out V)} {J : Nat → Nat → HProp V} {c : Nat} : ∀ {os : List O} {p : Nat},
    (∀ o ∈ os, ∀ r p, PT (p + c) (J (r + 1) p) (f o) (fun _ q => J r q)) → PT (p + c * os.length) (J os.length p) (runAll f os) (fun _ q => J 0 q)
  | [], p, _ => by
    rw [Adapter.runAll]
    exact PT.ret (ent_refl _)
  | o :: os, p, h => by
    rw [Adapter.runAll]
    refine PT.bind (PT.more (c * os.length) (h o List.mem_cons_self os.length p) (by rw [List.length_cons, Nat.mul_succ]; omega)) fun _ q => ?_
    refine PT.ex_left fun q0 => PT.pure_left fun hq => ?_
    rw [hq]
    refine PT.bind (PT.runAll (fun o ho => h o (List.mem_cons_of_mem _ ho))) fun _ q => ?_
    exact PT.ret (ent_refl _)

/-- the time of a whole life -/
theorem PT.life {O : Type} {create : M V Addr} {f : Addr → O → M V (Out V)} {destroy : Addr → M V Unit} {os : List O} {J : Addr → Nat → Nat → HProp V} {c d0 d1 : Nat} {C : Addr → HProp V}
    (hc : Triple True emp create (fun r => ⌜r ≠ 0⌝ ∗ C r)) (hcc : Cost create d0) (hJ : ∀ a, (C a ∗ R) ⊢ₛ J a os.length 0)
    (hs : ∀ a, ∀ o ∈ os, ∀ r p, PT (p + c) (J a (r + 1) p) (f a o) (fun _ q => J a r q))
    (hd : ∀ a p, PT (p + d1) (J a 0 p) (destroy a) (fun _ _ => R)) :
    PT (c * os.length + (d0 + d1)) R (life create f destroy os) (fun _ _ => R) := by
  unfold Adapter.life
  refine PT.pre (P' := emp ∗ R) (by cancel) ?_
  refine PT.bind (PT.frame (PT.of (p := c * os.length + d1) (Q' := fun r q => ⌜q = c * os.length + d1⌝ ∗ ⌜r ≠ 0⌝ ∗ C r) (TripleC.intro hc hcc (Le.refl _)) (by omega) fun _ => ent_pure_right rfl (ent_refl _))) fun a q => ?_
  rw [sep_assoc]
  refine PT.pure_left fun hq => ?_
  rw [sep_assoc]
  refine PT.pure_left fun ha => ?_
  rw [if_neg ha, hq]
  refine PT.pre (hJ a) ?_
  refine PT.bind (PT.more d1 (PT.runAll (p := 0) (c := c) (hs a)) (by omega)) fun _ q => ?_
  refine PT.ex_left fun q0 => PT.pure_left fun hq => ?_
  rw [hq]
  refine PT.bind (hd a q0) fun _ q => ?_
  exact PT.ret (ent_refl _)

theorem PT.done {m : M V α} {b : α → β} {Q : α → Nat → HProp V} {Q' : β → Nat → HProp V} {x : Nat} (h : PT x R m Q) (hq : ∀ a q, Q a q ⊢ₛ Q' (b a) q) :
    PT x R (m >>= fun a => pure (b a)) Q' := PT.bind h fun a q => PT.ret (hq a q)

/-- observing an element: the reference and the element -/
theorem tAd_look {m : M V Loc} (h : PT (p + 9) (tAd E k X a ty ws p ∗ R) m (fun _ q => tAd E k X a ty ws q ∗ R)) :
    PT (p + 10) (tAd E k X a ty ws p ∗ R) (m >>= look) (fun _ q => tAd E k X a ty ws q ∗ R) := by
  refine PT.bind (PT.more 1 h (by omega)) fun r q => ?_
  refine PT.ex_left fun q0 => PT.pure_left fun hq => ?_
  rw [hq]
  exact PT.seen fun _ => ent_refl _

theorem PT.slack {m : M V α} {Q : α → Nat → HProp V} {P : HProp V} {p p' : Nat} (hp : p ≤ p') (h : PT p P m Q) : PT p' P m Q := by
  intro s F a s' ho hs e
  obtain ⟨o, q, c, h1⟩ := h s F a s' ho hs e
  exact ⟨o, q, by omega, h1⟩

theorem stackOp_time {o : StackOp Loc} (ho : ∀ l, o = .push l → l.1 ≠ 0 ∧ ∃ R', R = (pts l (.obj (some (ρ l))) ∗ R')) :
    PT (p + 82) (∃ₛ ws, tAd E k X a ty ws p ∗ R) (runStackOp E a o) (fun _ q => ∃ₛ ws, tAd E k X a ty ws q ∗ R) := by
  refine PT.ex_left fun ws => ?_
  cases o with
  | push l =>
    obtain ⟨h0, R', hR⟩ := ho l rfl
    exact PT.done (b := fun _ => Out.done) (tAd_push h0 hR) fun _ q => ent_ex_right (ws ++ [ρ l]) (ent_refl _)
  | pop => exact PT.slack (by omega) (PT.done (b := fun _ => Out.done) (tAd_popB (p := p)) fun _ q => ent_ex_right ws.dropLast (ent_refl _))
  | top => exact PT.slack (p := p + 10) (by omega) (PT.post (tAd_look tAd_back) fun _ _ => ent_ex_right ws (ent_refl _))
  | empty => exact PT.slack (by omega) (PT.done (tAd_empty (p := p)) fun _ q => ent_ex_right ws (ent_refl _))

theorem queueOp_time {o : QueueOp Loc} (hk : k ≠ .vector) (hsz : k = .list → o ≠ .size) (ho : ∀ l, o = .push l → l.1 ≠ 0 ∧ ∃ R', R = (pts l (.obj (some (ρ l))) ∗ R')) :
    PT (p + 82) (∃ₛ ws, tAd E k X a ty ws p ∗ R) (runQueueOp E a o) (fun _ q => ∃ₛ ws, tAd E k X a ty ws q ∗ R) := by
  refine PT.ex_left fun ws => ?_
  cases o with
  | push l =>
    obtain ⟨h0, R', hR⟩ := ho l rfl
    exact PT.done (b := fun _ => Out.done) (tAd_push h0 hR) fun _ q => ent_ex_right (ws ++ [ρ l]) (ent_refl _)
  | pop => exact PT.slack (by omega) (PT.done (b := fun _ => Out.done) (tAd_popF (p := p) hk) fun _ q => ent_ex_right ws.tail (ent_refl _))
  | front => exact PT.slack (p := p + 10) (by omega) (PT.post (tAd_look tAd_front) fun _ _ => ent_ex_right ws (ent_refl _))
  | back => exact PT.slack (p := p + 10) (by omega) (PT.post (tAd_look tAd_back) fun _ _ => ent_ex_right ws (ent_refl _))
  | empty => exact PT.slack (by omega) (PT.done (tAd_empty (p := p)) fun _ q => ent_ex_right ws (ent_refl _))
  | size => exact PT.slack (by omega) (PT.done (tAd_size (p := p) fun h => hsz h rfl) fun _ q => ent_ex_right ws (ent_refl _))

theorem stack_life (hty : ty ≠ 0) (os : List (StackOp Loc)) (hargs : Args ρ R (stackArgs os)) :
    PT (82 * os.length + 44) R (life (create E ty (some k)) (runStackOp E) (destroy E) os) (fun _ _ => R) := by
  refine PT.life (J := fun a _ p => ∃ₛ ws, tAd E k (blk a 1) a ty ws p ∗ R) (d0 := 18) (d1 := 26) (tcreateAd hty) create_cost (fun a => ent_ex_right [] (ent_refl _)) (fun a o ho r p => ?_) fun a p => ?_
  · exact stackOp_time fun l hl => hargs l (by subst hl; exact List.mem_flatMap.2 ⟨_, ho, by simp⟩)
  · exact PT.ex_left fun ws => tAd_destroy fun b => Triple.pre (by cancel) free1

theorem queue_life (hk : k ≠ .vector) (hty : ty ≠ 0) (os : List (QueueOp Loc)) (hargs : Args ρ R (queueArgs os)) (hsz : k = .list → .size ∉ os) :
    PT (82 * os.length + 44) R (life (create E ty (some k)) (runQueueOp E) (destroy E) os) (fun _ _ => R) := by
  refine PT.life (J := fun a _ p => ∃ₛ ws, tAd E k (blk a 1) a ty ws p ∗ R) (d0 := 18) (d1 := 26) (tcreateAd hty) create_cost (fun a => ent_ex_right [] (ent_refl _)) (fun a o ho r p => ?_) fun a p => ?_
  · exact queueOp_time hk (fun h e => hsz h (e ▸ ho)) fun l hl => hargs l (by subst hl; exact List.mem_flatMap.2 ⟨_, ho, by simp⟩)
  · exact PT.ex_left fun ws => tAd_destroy fun b => Triple.pre (by cancel) free1

end CC.Adapter
