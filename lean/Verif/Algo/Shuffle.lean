import Verif.Algo.ModifySpec3
/-!
# `algo_random_shuffle`: the default generator, and which arrangements it can produce
-/
namespace CC.Algo
open CC CC.Tac
variable {V : Type} {nf : Prop} {c : Slots} {i : Nat} {vs ws : List V}

/-- `algo_random_shuffle`, c_modifying.c:771-775: `rnd k` is the result of the call of `rand()` made for `__i == k` -/
def shuffleDefault (c : Slots) (first last : Nat) (rnd : Nat → Nat) : M V Unit := shuffle c first last (fun k => uniform (rnd k) (k + 1))

theorem shuffleLoop_congr {r r' : Nat → Nat} {n : Nat} (h : ∀ k, k ≤ n → r k = r' k) : shuffleLoop (V := V) c i r n = shuffleLoop c i r' n := by
  induction n with
  | zero => rfl
  | succ n ih =>
    rw [shuffleLoop, shuffleLoop, h (n + 1) (Nat.le_refl _), ih fun k hk => h k (by omega)]

/-- every arrangement of the first `n + 1` elements is the result for some random numbers -/
theorem shuffleLoop_every {n : Nat} (hn : n < vs.length) (hp : ws.Perm vs) (hd : ws.drop (n + 1) = vs.drop (n + 1)) :
    ∃ r : Nat → Nat, (∀ k, r k ≤ k) ∧ Triple nf (seg c i vs) (shuffleLoop c i r n) (fun _ => seg c i ws) := by
  have hlen := hp.length_eq
  induction n generalizing vs with
  | zero =>
    refine ⟨fun _ => 0, fun k => Nat.zero_le k, ?_⟩
    rw [shuffleLoop]
    apply Triple.ret
    have hpt : (ws.take 1).Perm (vs.take 1) := by
      have := hp
      rw [← List.take_append_drop 1 ws, ← List.take_append_drop 1 vs, hd] at this
      exact (List.perm_append_right_iff _).1 this
    have : ws = vs := by
      match vs, ws, hn, hlen with
      | v :: vs, w :: ws, _, _ =>
        have h1 : w = v := by simpa using hpt
        have h2 : ws = vs := by simpa using hd
        rw [h1, h2]
    rw [this]
    exact ent_refl _
  | succ n ih =>
    have hpt : (ws.take (n + 2)).Perm (vs.take (n + 2)) := by
      have := hp
      rw [← List.take_append_drop (n + 2) ws, ← List.take_append_drop (n + 2) vs, hd] at this
      exact (List.perm_append_right_iff _).1 this
    have hmem : ws[n + 1]'(by omega) ∈ vs.take (n + 2) :=
      hpt.mem_iff.1 (List.mem_take_iff_getElem.2 ⟨n + 1, by omega, rfl⟩)
    obtain ⟨j, hj, hvj⟩ := List.mem_take_iff_getElem.1 hmem
    have hjl : j < vs.length := by omega
    have hpv : ((vs.set (n + 1) vs[j]).set j vs[n + 1]).Perm vs := List.set_set_perm _ _
    have hget : ∀ k, n + 1 ≤ k → ((vs.set (n + 1) vs[j]).set j vs[n + 1])[k]? = ws[k]? := by
      intro k hk
      by_cases hkk : k = n + 1
      · subst hkk
        by_cases hjk : j = n + 1
        · subst hjk
          rw [List.getElem?_set_self (by simpa using hn), List.getElem?_eq_getElem (by omega), ← hvj]
        · rw [List.getElem?_set_ne hjk, List.getElem?_set_self hn, List.getElem?_eq_getElem (by omega), ← hvj]
      · rw [List.getElem?_set_ne (by omega), List.getElem?_set_ne (by omega)]
        have := congrArg (fun l => l[k - (n + 2)]?) hd
        simp only [List.getElem?_drop] at this
        rw [show n + 1 + 1 + (k - (n + 2)) = k by omega] at this
        exact this.symm
    obtain ⟨r, hr, ht⟩ := ih (vs := (vs.set (n + 1) vs[j]).set j vs[n + 1]) (by simp; omega) (hp.trans hpv.symm) (by
      apply List.ext_getElem?
      intro k
      simp only [List.getElem?_drop]
      exact (hget _ (by omega)).symm) (by simp [hlen])
    refine ⟨fun k => if k = n + 1 then j else r k, fun k => by
      show (if k = n + 1 then j else r k) ≤ k
      have := hr k
      split <;> omega, ?_⟩
    rw [shuffleLoop]
    rw [if_pos rfl]
    refine Triple.bind (swp_seg hn hjl) fun _ => ?_
    rw [shuffleLoop_congr (r' := r) fun k hk => if_neg (by omega)]
    exact ht

theorem inv_mul (s : Nat) (hs : s < 1048576) :
    (2045 * ((s + 1048575) * 232789 % 1048576) + 1) - (2045 * ((s + 1048575) * 232789 % 1048576) + 1) / 1048576 * 1048576 = s := by
  have hsub : ∀ x, x - x / 1048576 * 1048576 = x % 1048576 := fun x => by omega
  rw [hsub, Nat.add_mod, Nat.mul_mod, Nat.mod_mod, ← Nat.mul_mod, ← Nat.add_mod]
  have h1 : 2045 * ((s + 1048575) * 232789) + 1 = 1048576 * (454 * (s + 1048575) + 1) + s := by omega
  rw [h1, Nat.mul_add_mod, Nat.mod_eq_of_lt hs]

/-- the multiplier of the generator is invertible: every number below `n` is a result, as long as `n` is at most 1048576 -/
theorem uniform_every {n j : Nat} (hn : n ≤ 1048576) (hj : j < n) : ∃ seed, seed < 1048576 ∧ uniform seed n = j := by
  obtain ⟨s, hs1, hs2⟩ : ∃ s, j * 1048576 ≤ n * s ∧ n * s < j * 1048576 + n := by
    have h1 := Nat.div_add_mod (j * 1048576 + n - 1) n
    have h2 := Nat.mod_lt (j * 1048576 + n - 1) (show 0 < n by omega)
    refine ⟨(j * 1048576 + n - 1) / n, ?_, ?_⟩ <;> generalize n * ((j * 1048576 + n - 1) / n) = z at * <;> omega
  have hs3 : s < 1048576 := by
    refine Classical.byContradiction fun h => ?_
    have h1 : (j + 1) * 1048576 ≤ n * 1048576 := Nat.mul_le_mul_right _ hj
    have h2 : n * 1048576 ≤ n * s := Nat.mul_le_mul_left _ (by omega)
    generalize n * s = z at *
    omega
  refine ⟨(s + 1048575) * 232789 % 1048576, Nat.mod_lt _ (by omega), ?_⟩
  unfold uniform
  simp only [inv_mul s hs3]
  generalize n * s = z at *
  omega

end CC.Algo
