import Lean
import Verif.Core.Sep
/-!
# Proof automation for the separation logic

Only proof-producing tactics: everything they build is checked by the kernel.

* `step`          – symbolic execution of the first statement of the program of a `Triple` goal
* `steps`         – repeat `step`
* `xintro p..`    – move existentials / pure facts of the precondition into the context
* `cancel`        – cancel common parts of an entailment
* `call h`        – use the specification `h` of the first statement
-/

namespace CC.Tac
open Lean Meta Elab Tactic

theorem assoc_step {V : Type} {A B C D : HProp V} (h : (B ∗ C) = D) : ((A ∗ B) ∗ C) = (A ∗ D) := by
  rw [sep_assoc, h]
theorem congr2 {V : Type} {A A' B B' : HProp V} (h₁ : A = A') (h₂ : B = B') : (A ∗ B) = (A' ∗ B') := by rw [h₁, h₂]
theorem congrR {V : Type} {A B B' : HProp V} (h₂ : B = B') : (A ∗ B) = (A ∗ B') := by rw [h₂]
theorem focus_step {V : Type} {A X R R' : HProp V} (h : R = (A ∗ R')) : (X ∗ R) = (A ∗ X ∗ R') := by
  rw [h, sep_left_comm]
theorem focus_last {V : Type} {A X R : HProp V} (h : R = (A ∗ emp)) : (X ∗ R) = (A ∗ X) := by
  rw [h, sep_left_comm, sep_emp]
theorem sep_emp_symm {V : Type} (A : HProp V) : A = (A ∗ emp) := (sep_emp A).symm

/-- the element type of an `HProp` expression -/
def vOf (P : Expr) : MetaM Expr := do
  let t ← whnfR (← inferType P)
  match t.getAppFnArgs with
  | (``HProp, #[v]) => return v
  | _ => throwError "not an HProp: {P}"

def mkChain (v : Expr) : List Expr → Expr
  | [] => mkApp (mkConst ``emp) v
  | [x] => x
  | x :: xs => mkApp3 (mkConst ``sep) v x (mkChain v xs)

def mkSep (v a b : Expr) : Expr := mkApp3 (mkConst ``sep) v a b

/-- view an expression as `A ∗ B` / `emp` -/
def view (P : Expr) : MetaM (Sum (Expr × Expr) Bool) := do
  let P ← instantiateMVars P
  let P := P.headBeta
  match P.getAppFnArgs with
  | (``sep, #[_, a, b]) => return .inl (a, b)
  | (``emp, #[_]) => return .inr true
  | _ => return .inr false

/-- proof of `mk la ∗ mk lb = mk (la ++ lb)` -/
partial def appendProof (v : Expr) : List Expr → List Expr → MetaM Expr
  | [], lb => mkAppM ``emp_sep #[mkChain v lb]
  | la, [] => mkAppM ``sep_emp #[mkChain v la]
  | [x], lb => mkEqRefl (mkSep v x (mkChain v lb))
  | x :: xs, lb => do
    let p ← appendProof v xs lb
    let A := x; let B := mkChain v xs; let C := mkChain v lb; let D := mkChain v (xs ++ lb)
    return mkApp6 (mkConst ``assoc_step) v A B C D p

/-- normal form: list of atoms `l` and a proof of `P = mkChain l` -/
partial def norm (v : Expr) (P : Expr) : MetaM (List Expr × Expr) := do
  let P ← instantiateMVars P
  let P := P.headBeta
  match ← view P with
  | .inl (a, b) =>
    let (la, pa) ← norm v a
    let (lb, pb) ← norm v b
    let p1 := mkAppN (mkConst ``congr2) #[v, a, mkChain v la, b, mkChain v lb, pa, pb]
    let p2 ← appendProof v la lb
    return (la ++ lb, ← mkEqTrans p1 p2)
  | .inr true => return ([], ← mkEqRefl P)
  | .inr false => return ([P], ← mkEqRefl P)

/-- `(atom, rest, proof of mkChain l = atom ∗ mkChain rest)` -/
partial def focusList (v : Expr) : List Expr → Nat → MetaM (Expr × List Expr × Expr)
  | [], _ => throwError "focus: empty"
  | [x], 0 => return (x, [], mkApp2 (mkConst ``sep_emp_symm) v x)
  | x :: xs, 0 => return (x, xs, ← mkEqRefl (mkSep v x (mkChain v xs)))
  | x :: xs, n+1 => do
    let (a, r, p) ← focusList v xs n
    match r with
    | [] => return (a, [x], mkAppN (mkConst ``focus_last) #[v, a, x, mkChain v xs, p])
    | _ => return (a, x :: r, mkAppN (mkConst ``focus_step) #[v, a, x, mkChain v xs, mkChain v r, p])

/-- Arguments of `Triple`: V, α, nf, P, m, Q -/
def tripleArgs (g : MVarId) : MetaM (Expr × Expr × Expr × Expr × Expr × Expr) := do
  let t ← instantiateMVars (← g.getType)
  let t := t.consumeMData
  match t.getAppFnArgs with
  | (``Triple, #[v, α, nf, P, m, Q]) => return (v, α, nf, P, m, Q)
  | _ => throwError "not a Triple goal: {t}"

/-- replace the precondition using a proof of `P = P'` -/
def setPre (g : MVarId) (P' pf : Expr) : MetaM MVarId := do
  let (v, α, nf, _, m, Q) ← tripleArgs g
  let newT := mkAppN (mkConst ``Triple) #[v, α, nf, P', m, Q]
  let g' ← mkFreshExprSyntheticOpaqueMVar newT (← g.getTag)
  g.assign (← mkAppM ``Triple.congrPre #[pf, g'])
  return g'.mvarId!

def setProg (g : MVarId) (m' pf : Expr) : MetaM MVarId := do
  let (v, α, nf, P, _, Q) ← tripleArgs g
  let newT := mkAppN (mkConst ``Triple) #[v, α, nf, P, m', Q]
  let g' ← mkFreshExprSyntheticOpaqueMVar newT (← g.getTag)
  g.assign (← mkAppM ``Triple.eq_prog #[pf, g'])
  return g'.mvarId!

/-- focus the first atom satisfying `p`; none if there is none -/
def focusPre (g : MVarId) (p : Expr → MetaM Bool) : MetaM (Option MVarId) := g.withContext do
  let (v, _, _, P, _, _) ← tripleArgs g
  let (l, pf) ← norm v P
  let mut i := 0
  for a in l do
    if ← p a then
      let (a, r, pf2) ← focusList v l i
      return some (← setPre g (mkSep v a (mkChain v r)) (← mkEqTrans pf pf2))
    i := i + 1
  return none

def isPtsAt (l : Expr) (a : Expr) : MetaM Bool := do
  let a ← whnfR a
  match a.getAppFnArgs with
  | (``pts, #[_, l', _]) => withReducible <| isDefEq l' l
  | _ => return false

/-- beta/zeta reduce the head of the program -/
partial def headNorm (m : Expr) : MetaM Expr := do
  let m ← instantiateMVars m
  let m := m.headBeta
  match m with
  | .letE _ _ v b _ => headNorm (b.instantiate1 v)
  | .mdata _ b => headNorm b
  | _ =>
    match m.getAppFnArgs with
    | (``Bind.bind, #[a, b, c, d, x, k]) =>
      let x' ← headNorm x
      return mkAppN m.getAppFn #[a, b, c, d, x', k]
    | _ => return m

/-- Is this one of the known primitive statements? returns the spec lemma and the location. -/
def primitive? (x : Expr) : MetaM (Option (Name × Option Expr)) := do
  let x ← whnfR x
  match x.getAppFnArgs with
  | (``ldN, #[_, l]) => return some (``Triple.ldN_spec, some l)
  | (``stN, #[_, l, _]) => return some (``Triple.stN_spec, some l)
  | (``ldP, #[_, l]) => return some (``Triple.ldP_spec, some l)
  | (``stP, #[_, l, _]) => return some (``Triple.stP_spec, some l)
  | (``ldV, #[_, l]) => return some (``Triple.ldV_spec, some l)
  | (``load, #[_, l]) => return some (``Triple.load_spec, some l)
  | (``store, #[_, l, _]) => return some (``Triple.store_spec, some l)
  | (``construct, #[_, l, _]) => return some (``Triple.construct_spec, some l)
  | (``destroyV, #[_, l]) => return some (``Triple.destroyV_spec, some l)
  | _ => return none

def applyStep (g : MVarId) (n : Name) : MetaM (List MVarId) := do
  let gs ← g.apply (← mkConstWithFreshMVarLevels n) { allowSynthFailures := true }
  gs.mapM fun g => do
    try
      let t ← instantiateMVars (← g.getType)
      match t.getAppFnArgs with
      | (``Triple, #[v, α, nf, P, m, Q]) =>
        g.replaceTargetDefEq (mkAppN t.getAppFn #[v, α, nf, P, ← headNorm m, Q])
      | _ => return g
    catch _ => return g

/-- one symbolic execution step -/
def stepCore (g : MVarId) : MetaM (List MVarId) := g.withContext do
  let (v, α, nf, P, m, Q) ← tripleArgs g
  let m ← headNorm m
  let g ← g.replaceTargetDefEq (mkAppN (mkConst ``Triple) #[v, α, nf, P, m, Q])
  match m.getAppFnArgs with
  | (``Bind.bind, #[_, _, _, _, x, _]) =>
    let xr ← whnfR x
    match xr.getAppFnArgs with
    | (``Bind.bind, _) =>
      let e ← mkConstWithFreshMVarLevels ``bind_assoc
      let (mvs, _, t) ← forallMetaTelescope (← inferType e)
      let some (_, lhs, rhs) := t.eq? | throwError "bind_assoc"
      unless ← isDefEq lhs m do throwError "step: bind_assoc"
      for mv in mvs do
        unless ← mv.mvarId!.isAssigned do
          let inst ← synthInstance (← instantiateMVars (← inferType mv))
          mv.mvarId!.assign inst
      let pf ← instantiateMVars (mkAppN e mvs)
      return [← setProg g (← headNorm (← instantiateMVars rhs)) pf]
    | (``Pure.pure, _) =>
      let e ← mkConstWithFreshMVarLevels ``pure_bind
      let (mvs, _, t) ← forallMetaTelescope (← inferType e)
      let some (_, lhs, rhs) := t.eq? | throwError "pure_bind"
      unless ← isDefEq lhs m do throwError "step: pure_bind"
      for mv in mvs do
        unless ← mv.mvarId!.isAssigned do
          let inst ← synthInstance (← instantiateMVars (← inferType mv))
          mv.mvarId!.assign inst
      let pf ← instantiateMVars (mkAppN e mvs)
      return [← setProg g (← headNorm (← instantiateMVars rhs)) pf]
    | (``cassert, _) =>
      applyStep g ``Triple.cassert_spec
    | _ =>
      match ← primitive? xr with
      | some (spec, some l) =>
        match ← focusPre g (isPtsAt l) with
        | some g => applyStep g spec
        | none => throwError "step: no atom for location {l} in{indentExpr P}"
      | _ => throwError "step: unknown statement {x}"
  | (``Pure.pure, _) => throwError "step: program finished"
  | _ =>
    match ← primitive? m with
    | some _ =>
      let pf ← mkEqSymm (← mkAppM ``bind_pure #[m])
      let some (_, _, rhs) := (← inferType pf).eq? | throwError "bind_pure"
      return [← setProg g (← instantiateMVars rhs) pf]
    | none => throwError "step: cannot execute {m}"

elab "step" : tactic => do
  let g ← getMainGoal
  let gs ← stepCore g
  replaceMainGoal gs

macro "steps" : tactic => `(tactic| repeat step)

/-- bring the atom matching the term to the front of the precondition -/
elab "focus_atom " t:term : tactic => withMainContext do
  let g ← getMainGoal
  let pat ← elabTerm t none true
  match ← focusPre g (fun a => withReducible <| isDefEq a pat) with
  | some g => replaceMainGoal [g]
  | none => throwError "focus_atom: not found"

def isExOrPure (a : Expr) : MetaM Bool := do
  let a ← whnfR a
  match a.getAppFnArgs with
  | (``hex, _) => return true
  | (``hpure, _) => return true
  | _ => return false

/-- entailment args -/
def entArgs (g : MVarId) : MetaM (Expr × Expr × Expr) := do
  let t ← instantiateMVars (← g.getType)
  match t.consumeMData.getAppFnArgs with
  | (``ent, #[v, P, Q]) => return (v, P, Q)
  | _ => throwError "not an entailment"

def setEnt (g : MVarId) (left : Bool) (P' pf : Expr) : MetaM MVarId := do
  let (v, P, Q) ← entArgs g
  let newT := if left then mkApp3 (mkConst ``ent) v P' Q else mkApp3 (mkConst ``ent) v P P'
  let g' ← mkFreshExprSyntheticOpaqueMVar newT (← g.getTag)
  g.assign (← mkAppM (if left then ``ent_congr_left else ``ent_congr_right) #[pf, g'])
  return g'.mvarId!

def extract (g : MVarId) : MetaM MVarId := g.withContext do
  let t ← instantiateMVars (← g.getType)
  if t.consumeMData.isAppOf ``Triple then
    match ← focusPre g isExOrPure with
    | none => throwError "xintro: nothing to introduce"
    | some g =>
      let (_, _, _, P, _, _) ← tripleArgs g
      let a ← whnfR P.appFn!.appArg!
      let n := if a.isAppOf ``hex then ``Triple.ex_left' else ``Triple.pure_left
      let [g] ← g.apply (← mkConstWithFreshMVarLevels n) | throwError "xintro"
      return g
  else
    let (v, P, _) ← entArgs g
    let (l, pf) ← norm v P
    let mut i := 0
    for a in l do
      if ← isExOrPure a then
        let (a, r, pf2) ← focusList v l i
        let g ← setEnt g true (mkSep v a (mkChain v r)) (← mkEqTrans pf pf2)
        let a ← whnfR a
        let n := if a.isAppOf ``hex then ``ent_ex_left' else ``ent_pure_left
        let [g] ← g.apply (← mkConstWithFreshMVarLevels n) | throwError "xintro"
        return g
      i := i + 1
    throwError "xintro: nothing to introduce"

elab "xextract" : tactic => do
  let g ← getMainGoal
  replaceMainGoal [← extract g]

def betaPre (g : MVarId) : MetaM MVarId := do
  let t ← instantiateMVars (← g.getType)
  g.replaceTargetDefEq (t.headBeta)

syntax "xintro" (ppSpace colGt rintroPat)* : tactic
macro_rules
  | `(tactic| xintro) => `(tactic| skip)
  | `(tactic| xintro $p $ps*) => `(tactic| (xextract; rintro $p; xintro $ps*))

/-- move a pure equation `r = e` of the precondition into the context and replace `r` by `e` -/
macro "xsub" : tactic => `(tactic| (xextract; intro h; replace h := Eq.symm h; subst h))

/-- flatten the precondition -/
elab "flat" : tactic => withMainContext do
  let g ← getMainGoal
  let t ← instantiateMVars (← g.getType)
  if t.consumeMData.isAppOf ``Triple then
    let (v, _, _, P, _, _) ← tripleArgs g
    let (l, pf) ← norm v P
    replaceMainGoal [← setPre g (mkChain v l) pf]
  else
    let (v, P, Q) ← entArgs g
    let (l, pf) ← norm v P
    let g ← setEnt g true (mkChain v l) pf
    let (l, pf) ← norm v Q
    let g ← setEnt g false (mkChain v l) pf
    replaceMainGoal [g]

/-- cancel atoms; returns remaining goals (pure side goals first) -/
partial def cancelCore (g : MVarId) : MetaM (List MVarId) := g.withContext do
  let (v, P, Q) ← entArgs g
  let (lp, pfp) ← norm v P
  let (lq, pfq) ← norm v Q
  -- find a match: first exact (no metavariables), then with metavariables
  let tryMatch (allowMVar : Bool) : MetaM (Option (Nat × Nat)) := do
    let mut j := 0
    for q in lq do
      let q ← instantiateMVars q
      unless q.getAppFn.isMVar do
        if allowMVar || !q.hasExprMVar then
          let mut i := 0
          for p in lp do
            if ← withReducible <| isDefEq p q then return some (i, j)
            i := i + 1
      j := j + 1
    return none
  let mut m? ← tryMatch false
  if m?.isNone then
    m? ← tryMatch true
  match m? with
  | some (i, j) =>
    let (a, rp, p1) ← focusList v lp i
    let (b, rq, p2) ← focusList v lq j
    let g ← setEnt g true (mkSep v a (mkChain v rp)) (← mkEqTrans pfp p1)
    let g ← setEnt g false (mkSep v b (mkChain v rq)) (← mkEqTrans pfq p2)
    let gs ← g.apply (← mkConstWithFreshMVarLevels ``ent_cancel)
    match gs with
    | [g] => cancelCore g
    | _ => throwError "cancel"
  | none =>
    -- pure atoms on the right
    let mut j := 0
    for q in lq do
      let q' ← whnfR q
      if q'.isAppOf ``hpure then
        let (b, rq, p2) ← focusList v lq j
        let g ← setEnt g false (mkSep v b (mkChain v rq)) (← mkEqTrans pfq p2)
        let gs ← g.apply (← mkConstWithFreshMVarLevels ``ent_pure_right)
        match gs with
        | [gp, g] =>
          let rest ← cancelCore g
          return rest ++ [gp]
        | _ => throwError "cancel pure"
      j := j + 1
    -- frame inference
    match lq with
    | [q] =>
      let q ← instantiateMVars q
      if q.isMVar then
        if ← isDefEq q (mkChain v lp) then
          let g ← setEnt g true (mkChain v lp) pfp
          let g ← setEnt g false (mkChain v lq) pfq
          let gs ← g.apply (← mkConstWithFreshMVarLevels ``ent_refl)
          return gs
    | _ => pure ()
    let g ← setEnt g true (mkChain v lp) pfp
    let g ← setEnt g false (mkChain v lq) pfq
    if ← isDefEq (mkChain v lp) (mkChain v lq) then
      let gs ← g.apply (← mkConstWithFreshMVarLevels ``ent_refl)
      return gs
    return [g]

elab "cancel_core" : tactic => do
  let g ← getMainGoal
  let gs ← cancelCore g
  replaceMainGoal gs

/-- cancel and try to close the side goals -/
macro "cancel" : tactic => `(tactic| (cancel_core <;> try first | assumption | trivial | rfl))

def isEx (a : Expr) : MetaM Bool := do
  let a ← whnfR a
  return a.isAppOf ``hex

/-- bring the first existential on the right of an entailment to the front -/
elab "focus_ex" : tactic => withMainContext do
  let g ← getMainGoal
  let (v, _, Q) ← entArgs g
  let (l, pf) ← norm v Q
  let mut i := 0
  for a in l do
    if ← isEx a then
      let (a, r, pf2) ← focusList v l i
      let g ← setEnt g false (mkSep v a (mkChain v r)) (← mkEqTrans pf pf2)
      replaceMainGoal [g]
      return
    i := i + 1
  throwError "focus_ex: no existential"

/-- instantiate the first existential on the right of an entailment -/
syntax "xexists" term,+ : tactic
macro_rules
  | `(tactic| xexists $t) => `(tactic| (focus_ex; apply ent_ex_right' $t))
  | `(tactic| xexists $t, $ts,*) => `(tactic| (focus_ex; apply ent_ex_right' $t; xexists $ts,*))

/-- use a specification of the first statement (or of the whole remaining program) -/
elab "call " t:term : tactic => withMainContext do
  let g ← getMainGoal
  let tag := (← g.getTag).eraseMacroScopes
  let (v, α, nf, P, m, Q) ← tripleArgs g
  let m ← headNorm m
  let g ← g.replaceTargetDefEq (mkAppN (mkConst ``Triple) #[v, α, nf, P, m, Q])
  replaceMainGoal [g]
  let isBind := m.isAppOf ``Bind.bind
  let lem ← mkConstWithFreshMVarLevels (if isBind then ``Triple.bind_frame else ``Triple.call_frame)
  let (mvs, _, concl) ← forallMetaTelescope (← inferType lem)
  unless ← isDefEq concl (← g.getType) do throwError "call: cannot unify"
  -- arguments: ... h hp hk are the last three
  let n := mvs.size
  let h := mvs[n-3]!; let hp := mvs[n-2]!; let hk := mvs[n-1]!
  let hT ← instantiateMVars (← inferType h)
  let (e, extra) ← elabTermWithHoles t (some hT) tag (allowNaturalHoles := true)
  let eT ← inferType e
  unless ← isDefEq eT hT do throwError "call: specification{indentExpr eT}\ndoes not match{indentExpr hT}"
  h.mvarId!.assign e
  g.assign (mkAppN lem mvs)
  let gs1 ← cancelCore hp.mvarId!
  let hkT ← instantiateMVars (← hk.mvarId!.getType)
  let hkT ← Core.betaReduce hkT
  let hk' ← hk.mvarId!.replaceTargetDefEq hkT
  let extra ← extra.filterM fun g => not <$> g.isAssigned
  replaceMainGoal ((gs1 ++ [hk'] ++ extra).eraseDups)

end CC.Tac

namespace CC
variable {V β : Type} {nf : Prop}

theorem free1 {a : Addr} {u : Val V} : Triple nf (blk a 1 ∗ pts (a,1) u) (free a) (fun _ => emp) := by
  have := Triple.free_spec (nf := nf) (P := emp) (Q := fun _ => emp) (n := 1) (a := a) (vs := [u]) (k := fun _ => pure ()) rfl
    (Triple.ret (ent_refl _))
  simpa [arr] using this
theorem freeV1 {a : Addr} : Triple (V := V) nf (blk a 1 ∗ pts (a,1) (.obj none)) (freeV a) (fun _ => emp) := by
  unfold freeV
  refine Triple.pre (P' := pts (a,1) (.obj none) ∗ blk a 1) (by rw [sep_comm]; exact ent_refl _) ?_
  refine Triple.load_spec ?_
  refine Triple.pre (by rw [sep_comm]; exact ent_refl _) ?_
  exact free1
theorem free2 {a : Addr} {u v : Val V} : Triple nf (blk a 2 ∗ pts (a,1) u ∗ pts (a,2) v) (free a) (fun _ => emp) := by
  have := Triple.free_spec (nf := nf) (P := emp) (Q := fun _ => emp) (n := 2) (a := a) (vs := [u,v]) (k := fun _ => pure ()) rfl
    (Triple.ret (ent_refl _))
  simpa [arr] using this
theorem free3 {a : Addr} {u v w : Val V} :
    Triple nf (blk a 3 ∗ pts (a,1) u ∗ pts (a,2) v ∗ pts (a,3) w) (free a) (fun _ => emp) := by
  have := Triple.free_spec (nf := nf) (P := emp) (Q := fun _ => emp) (n := 3) (a := a) (vs := [u,v,w]) (k := fun _ => pure ()) rfl
    (Triple.ret (ent_refl _))
  simpa [arr] using this

theorem mallocO1 {P : HProp V} {Q : β → HProp V} {k : Addr → M V β} (hfail : ¬ nf → Triple nf P (k 0) Q)
    (hok : ∀ a, a ≠ 0 → Triple nf (blk a 1 ∗ pts (a,1) (.obj none) ∗ P) (k a) Q) :
    Triple nf P (mallocO 1 >>= k) Q :=
  Triple.mallocG_spec hfail fun a j h => by
    simpa [arr, List.range_succ, sep_assoc] using hok a h
theorem mallocS2 {P : HProp V} {Q : β → HProp V} {k : Addr → M V β} (hfail : ¬ nf → Triple nf P (k 0) Q)
    (hok : ∀ a x y, a ≠ 0 → Triple nf (blk a 2 ∗ fld a 1 x ∗ fld a 2 y ∗ P) (k a) Q) :
    Triple nf P (mallocS 2 >>= k) Q :=
  Triple.mallocG_spec hfail fun a j h => by
    simpa [arr, List.range_succ, sep_assoc] using hok a (j 1) (j 2) h
theorem mallocS3 {P : HProp V} {Q : β → HProp V} {k : Addr → M V β} (hfail : ¬ nf → Triple nf P (k 0) Q)
    (hok : ∀ a x y z, a ≠ 0 → Triple nf (blk a 3 ∗ fld a 1 x ∗ fld a 2 y ∗ fld a 3 z ∗ P) (k a) Q) :
    Triple nf P (mallocS 3 >>= k) Q :=
  Triple.mallocG_spec hfail fun a j h => by
    simpa [arr, List.range_succ, sep_assoc] using hok a (j 1) (j 2) (j 3) h

/-- if the two branches of a conditional have the same precondition -/
theorem Triple.ite {α : Type} {c : Prop} [Decidable c] {P : HProp V} {m₁ m₂ : M V α} {Q : α → HProp V}
    (h₁ : c → Triple nf P m₁ Q) (h₂ : ¬ c → Triple nf P m₂ Q) : Triple nf P (if c then m₁ else m₂) Q := by
  split
  · exact h₁ ‹_›
  · exact h₂ ‹_›

end CC

namespace CC
variable {V β : Type} {nf : Prop}

/-- In every fragment satisfying `P`, the location holds the constructed value `v`
(so a reference to it may be passed as an argument). -/
def Reads (P : HProp V) (l : Loc) (v : V) : Prop := ∀ h, P h → h l = some (.obj (some v))

theorem Reads.pts {l : Loc} {v : V} : Reads (pts l (.obj (some v))) l v := by
  rintro h ⟨_, rfl⟩; simp
theorem Reads.left {P Q : HProp V} {l : Loc} {v : V} (hr : Reads P l v) : Reads (P ∗ Q) l v := by
  rintro h ⟨h₁, h₂, _, rfl, hp, _⟩
  simp [Heap.union, hr _ hp]
theorem Reads.right {P Q : HProp V} {l : Loc} {v : V} (hr : Reads Q l v) : Reads (P ∗ Q) l v := by
  rw [sep_comm]; exact hr.left
theorem Reads.mono {P Q : HProp V} {l : Loc} {v : V} (hr : Reads Q l v) (h : P ⊢ₛ Q) : Reads P l v :=
  fun _ hp => hr _ (h _ hp)

theorem Reads.of_ent {P P' R : HProp V} {l : Loc} {v : V} (hr : Reads P l v) (h : P' ⊢ₛ P ∗ R) : Reads P' l v :=
  hr.left.mono h

theorem ldV_reads {P : HProp V} {Q : β → HProp V} {l : Loc} {v : V} {k : V → M V β} (hr : Reads P l v)
    (h : Triple nf P (k v) Q) : Triple nf P (ldV l >>= k) Q := by
  intro s F hnf hs
  obtain ⟨b, s', e, ho, hq⟩ := h s.bump F hnf hs
  refine ⟨b, s', ?_, ho, hq⟩
  have hc : s.cells l = some (.obj (some v)) := hr.left _ hs
  rw [← e]
  simp [ldV, load, Bind.bind, StateT.bind, ExceptT.bind, ExceptT.mk, Option.bind, ExceptT.bindCont, hc,
    get, getThe, MonadStateOf.get, StateT.get, set, StateT.set, Pure.pure, StateT.pure, ExceptT.pure]
end CC
