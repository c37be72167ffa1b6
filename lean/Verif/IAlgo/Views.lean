import Verif.IAlgo.Range
/-!
# Lists, forward lists, vectors and deques, forwards and backwards, as structure and elements
-/
namespace CC.IAlgo
open CC CC.Tac CC.Iter CC.Algo
open CC.CList (Elem nodes firstN lastN)
variable {V : Type} {nf : Prop} {Z : Nat → Nat} {F : HProp V} {vs : List V}

theorem seg_rev {f g : Slots} {i j : Nat} (h : ∀ k, k < vs.length → g (j + k) = f (i + (vs.length - 1 - k))) : seg g j vs = seg f i vs.reverse := by
  induction vs generalizing j with
  | nil => rw [List.reverse_nil, seg_nil, seg_nil]
  | cons v vs ih =>
    rw [List.reverse_cons, seg_append, seg_one, seg_cons, ih (j := j + 1) fun k hk => ?_]
    · have := h 0 (by simp)
      simp only [Nat.add_zero, List.length_cons, Nat.add_sub_cancel, Nat.sub_zero] at this
      rw [this, List.length_reverse]
      exact sep_comm _ _
    · have := h (k + 1) (by simpa using hk)
      rw [show j + 1 + k = j + (k + 1) by omega, this]
      simp only [List.length_cons, Nat.add_sub_cancel]
      rw [show vs.length - (k + 1) = vs.length - 1 - k by omega]

/-! ### lists -/
section
variable {l a s ty : Nat} {xs : List (Elem V)}

theorem frames_box (hh : (frames xs ∗ F) h) {i : Nat} (hi : i < xs.length) : (boxAt xs i).1 ≠ 0 := by
  obtain ⟨X, e, Y, hx, _, _, _, h2, _⟩ := split_at hi
  rw [h2]
  rw [hx, frames_append, frames] at hh
  exact pts_ne_zero (l := (e.box, 0)) (v := .sz 1) (R := _) ((show _ ⊢ₛ _ by cancel) _ hh)

theorem sframes_box (hh : (sframes xs ∗ F) h) {i : Nat} (hi : i < xs.length) : (boxAt xs i).1 ≠ 0 := by
  obtain ⟨X, e, Y, hx, _, _, _, h2, _⟩ := split_at hi
  rw [h2]
  rw [hx, sframes_append, sframes] at hh
  exact pts_ne_zero (l := (e.box, 0)) (v := .sz 1) (R := _) ((show _ ⊢ₛ _ by cancel) _ hh)

theorem list_view (hty : ty ≠ 0) : View Z (fun vs => CList.isList l s ty (setVals xs vs)) (listSrc l s ty xs) (listS l s ty xs) where
  eq := by
    intro vs h
    show CList.isList l s ty (setVals xs vs) = (seg (boxAt xs) 0 vs ∗ listS l s ty xs)
    rw [isList_seg h, boxAt_lslots, listS, sep_comm]
  ok := listS_ok hty
  real := by
    intro h F hh i hi
    unfold listS at hh
    exact frames_box (F := CList.hdr l s ty ∗ CList.path s (nodes xs ++ [s]) ∗ F) ((show _ ⊢ₛ _ by cancel) _ hh) hi

theorem listR_view (hty : ty ≠ 0) : View Z (fun vs => CList.isList l s ty (setVals xs vs.reverse)) (listSrcR l s ty xs) (listS l s ty xs) where
  eq := by
    intro vs h
    have h : vs.length = xs.length := h
    show CList.isList l s ty (setVals xs vs.reverse) = (seg (fun i => boxAt xs (xs.length - 1 - i)) 0 vs ∗ listS l s ty xs)
    rw [isList_seg (by rw [List.length_reverse, h]), boxAt_lslots, listS, sep_comm]
    congr 1
    exact (seg_rev fun k hk => by rw [Nat.zero_add, Nat.zero_add, h]).symm
  ok := listSR_ok hty
  real := by
    intro h F hh i hi
    have hi : i < xs.length := hi
    unfold listS at hh
    exact frames_box (F := CList.hdr l s ty ∗ CList.path s (nodes xs ++ [s]) ∗ F) ((show _ ⊢ₛ _ by cancel) _ hh) (by omega)

theorem slist_view (hty : ty ≠ 0) : View Z (fun vs => SList.isSList l a s ty (setVals xs vs)) (slistSrc l s ty xs) (slistS l a s ty xs) where
  eq := by
    intro vs h
    show SList.isSList l a s ty (setVals xs vs) = (seg (boxAt xs) 0 vs ∗ slistS l a s ty xs)
    rw [isSList_seg h, boxAt_lslots, slistS, sep_comm]
  ok := slistS_ok hty
  real := by
    intro h F hh i hi
    unfold slistS at hh
    exact sframes_box (F := SList.hdr l a s ty ∗ SList.path a (nodes xs ++ [s]) ∗ F) ((show _ ⊢ₛ _ by cancel) _ hh) hi
end

/-! ### vectors and deques (of plain data) -/
section
variable {ty v b cap lo hi n : Nat} {t : Ty V}

theorem buf_real {R : HProp V} (hc : 0 < cap) (hh : (Vec.buf b cap ∗ R) h) : b ≠ 0 := by
  intro h0
  unfold Vec.buf at hh
  rw [if_pos h0] at hh
  obtain ⟨_, _, _, _, hp, _⟩ := hh
  have := hp.1
  omega

theorem vecS_real {i : Nat} (hi : i < n) (hh : (vecS ty v b cap n ∗ F) h) : b ≠ 0 := by
  unfold vecS Vec.vhdr at hh
  have h1 : (⌜n ≤ cap⌝ ∗ Vec.buf b cap ∗ (blk v 4 ∗ pts (v, 1) (.ptr b 1) ∗ pts (v, 2) (.ptr b (1 + n)) ∗ pts (v, 3) (.ptr b (1 + cap)) ∗ fld v 4 ty) ∗ raws b (1 + n) (cap - n) ∗ F) h :=
    (show _ ⊢ₛ _ by cancel) _ hh
  rw [hpure_sep_apply] at h1
  exact buf_real (by omega) h1.2

theorem deqS_real {i : Nat} (hn : i < n) (hh : (deqS ty v b lo hi n ∗ F) h) : b ≠ 0 := by
  unfold deqS Deq.dhdr at hh
  exact buf_real (cap := lo + n + hi) (R := _) (by omega) ((show _ ⊢ₛ _ by cancel) _ hh)

theorem vec_view (hty : ty ≠ 0) (hz : 0 < Z ty) (hb : n * Z ty < 2 ^ 63) :
    View Z (fun vs => Vec.isVec (nf := nf) (T := fun _ => plainOps t) (ty := ty) (plainSpec t) v b cap vs) (vecSrc v b ty n) (vecS ty v b cap n) where
  eq := by
    intro vs h
    have h : vs.length = n := h
    show Vec.isVec (nf := nf) (T := fun _ => plainOps t) (ty := ty) (plainSpec t) v b cap vs = (seg (aslots b 1) 0 vs ∗ vecS ty v b cap n)
    rw [isVec_seg, h, vecS, sep_comm]
  ok := vecS_ok hty hz hb
  real := fun _ _ hh _ hi => vecS_real hi hh

theorem vecR_view (hty : ty ≠ 0) (hz : 0 < Z ty) (hb : n * Z ty < 2 ^ 63) :
    View Z (fun vs => Vec.isVec (nf := nf) (T := fun _ => plainOps t) (ty := ty) (plainSpec t) v b cap vs.reverse) (vecSrcR v b ty n) (vecS ty v b cap n) where
  eq := by
    intro vs h
    have h : vs.length = n := h
    show Vec.isVec (nf := nf) (T := fun _ => plainOps t) (ty := ty) (plainSpec t) v b cap vs.reverse = (seg (fun i => (b, 1 + (n - 1 - i))) 0 vs ∗ vecS ty v b cap n)
    rw [isVec_seg, List.length_reverse, h, vecS, sep_comm]
    congr 1
    exact (seg_rev fun k hk => by rw [Nat.zero_add, Nat.zero_add, h]; rfl).symm
  ok := vecSR_ok hty hz hb
  real := fun _ _ hh _ hi => vecS_real hi hh

theorem deq_view (hty : ty ≠ 0) (hz : 0 < Z ty) (hb : n * Z ty < 2 ^ 63) :
    View Z (fun vs => Deq.isDeq (nf := nf) (T := fun _ => plainOps t) (ty := ty) (plainSpec t) v b lo hi vs) (deqSrc v b lo ty n) (deqS ty v b lo hi n) where
  eq := by
    intro vs h
    have h : vs.length = n := h
    show Deq.isDeq (nf := nf) (T := fun _ => plainOps t) (ty := ty) (plainSpec t) v b lo hi vs = (seg (aslots b (1 + lo)) 0 vs ∗ deqS ty v b lo hi n)
    rw [isDeq_seg, h, deqS, sep_comm]
  ok := deqS_ok hty hz hb
  real := fun _ _ hh _ hi => deqS_real hi hh

theorem deqR_view (hty : ty ≠ 0) (hz : 0 < Z ty) (hb : n * Z ty < 2 ^ 63) :
    View Z (fun vs => Deq.isDeq (nf := nf) (T := fun _ => plainOps t) (ty := ty) (plainSpec t) v b lo hi vs.reverse) (deqSrcR v b lo ty n) (deqS ty v b lo hi n) where
  eq := by
    intro vs h
    have h : vs.length = n := h
    show Deq.isDeq (nf := nf) (T := fun _ => plainOps t) (ty := ty) (plainSpec t) v b lo hi vs.reverse = (seg (fun i => (b, 1 + lo + (n - 1 - i))) 0 vs ∗ deqS ty v b lo hi n)
    rw [isDeq_seg, List.length_reverse, h, deqS, sep_comm]
    congr 1
    exact (seg_rev fun k hk => by rw [Nat.zero_add, Nat.zero_add, h]; rfl).symm
  ok := deqSR_ok hty hz hb
  real := fun _ _ hh _ hi => deqS_real hi hh
end
end CC.IAlgo
