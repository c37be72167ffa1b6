import Verif.Algo.Shuffle
import Verif.Props.CModify
import Verif.Props.CIterModify
/-!
# Property C80: shuffling with the library's own generator

`algo_random_shuffle` calls `rand()` once per element but the first.  For every sequence of results the elements are permuted; and every arrangement of up to 1048576 elements is the outcome of some
sequence of results.
-/
namespace CC.Algo
open CC CC.Tac
variable {V : Type} {nf : Prop} {c : Slots} {i : Nat} {vs ws : List V}

/-- whatever `rand()` returns, the elements are permuted and nothing else changes -/
theorem C80_permutes (rnd : Nat → Nat) :
    Triple nf (seg c i vs) (shuffleDefault c i (i + vs.length) rnd) (fun _ => ∃ₛ ws, ⌜ws.Perm vs⌝ ∗ seg c i ws) :=
  C51_random_shuffle (fun k => uniform (rnd k) (k + 1)) fun k _ => uniform_lt (by omega)

/-- every arrangement can come out -/
theorem C80_every_arrangement (hn : vs.length ≤ 1048576) (hp : ws.Perm vs) :
    ∃ rnd : Nat → Nat, (∀ k, rnd k < 1048576) ∧ Triple nf (seg c i vs) (shuffleDefault c i (i + vs.length) rnd) (fun _ => seg c i ws) := by
  by_cases h0 : vs.length = 0
  · have h1 : vs = [] := List.length_eq_zero_iff.1 h0
    subst h1
    have h2 : ws = [] := List.perm_nil.1 hp
    subst h2
    refine ⟨fun _ => 0, fun _ => by show 0 < 1048576; omega, ?_⟩
    unfold shuffleDefault shuffle
    rw [show i + ([] : List V).length - i - 1 = 0 by simp, shuffleLoop]
    exact Triple.ret (ent_refl _)
  · obtain ⟨r, hr, ht⟩ := shuffleLoop_every (nf := nf) (c := c) (i := i) (vs := vs) (ws := ws) (n := vs.length - 1) (by omega) hp (by
      rw [List.drop_eq_nil_of_le (by rw [hp.length_eq]; omega), List.drop_eq_nil_of_le (by omega)])
    have hex : ∀ k, ∃ seed, seed < 1048576 ∧ (k < vs.length → uniform seed (k + 1) = r k) := by
      intro k
      by_cases hk : k < vs.length
      · obtain ⟨sd, h1, h2⟩ := uniform_every (n := k + 1) (j := r k) (by omega) (by have := hr k; omega)
        exact ⟨sd, h1, fun _ => h2⟩
      · exact ⟨0, by omega, fun h => absurd h hk⟩
    refine ⟨fun k => Classical.choose (hex k), fun k => (Classical.choose_spec (hex k)).1, ?_⟩
    unfold shuffleDefault shuffle
    rw [show i + vs.length - i - 1 = vs.length - 1 by omega, shuffleLoop_congr (r' := r) fun k hk => (Classical.choose_spec (hex k)).2 (by omega)]
    exact ht

/-- with fewer random numbers than elements not every arrangement is possible: 1048576 is the number of different results of the generator -/
theorem C80_few_numbers (n : Nat) (a b : Nat) (h : a % 1048576 = b % 1048576) : uniform a n = uniform b n := by
  unfold uniform
  have h1 : (2045 * a + 1) - (2045 * a + 1) / 1048576 * 1048576 = (2045 * b + 1) - (2045 * b + 1) / 1048576 * 1048576 := by omega
  simp only [h1]

/-- an example: there are results of `rand()` that turn 1, 2, 3 into 2, 3, 1 -/
example (c : Slots) : ∃ rnd : Nat → Nat, (∀ k, rnd k < 1048576) ∧ Triple True (seg c 0 [1, 2, 3]) (shuffleDefault c 0 3 rnd) (fun _ => seg c 0 [2, 3, 1]) :=
  C80_every_arrangement (i := 0) (vs := [1, 2, 3]) (by decide) (by decide)

end CC.Algo

namespace CC.IAlgo
open CC CC.Tac CC.Iter CC.Algo
variable {V : Type} {Z : Nat → Nat} {S A : HProp V} {r : Src V} {first last i : Nat} {vs : List V}

/-- `algo_random_shuffle`, c_modifying.c:771-775, with iterator objects -/
def shuffleDefault (Z : Nat → Nat) (first last : Addr) (rnd : Nat → Nat) : M V Unit := IAlgo.shuffle Z first last (fun k => uniform (rnd k) (k + 1))

theorem C80_permutes_iterators (rnd : Nat → Nat) (hs : Spans Z S A r first last i vs.length) (hm : r.kind.type < 7) (hn : r.Real S) (hc : r.kind.cate = 4) :
    Triple True (seg r.ref i vs ∗ A ∗ S) (IAlgo.shuffleDefault Z first last rnd) (fun _ => ∃ₛ ws, ⌜ws.Perm vs⌝ ∗ seg r.ref i ws ∗ A ∗ S) :=
  C63_random_shuffle (fun k => uniform (rnd k) (k + 1)) (fun k _ => Nat.le_of_lt_succ (uniform_lt (by omega))) hs hm hn hc

end CC.IAlgo
