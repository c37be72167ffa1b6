import Verif.Own.Model
import Verif.Own.Tac
/-!
# Simulation theorems for the generated programs (generated by tools/gen_own.py)
-/
namespace CC.Own
open CC CC.Tac
open CC.Algo (Slots)
variable {V W : Type} {o : AOps V} {e : AElem o W} {F : HProp V}

theorem S_scan {cond : Nat → M W Bool} {cond2 : Nat → M V Bool} {first : Nat} {last : Nat} (hc : ∀ x, SimE e F (cond x) (cond2 x)) : SimE e F (Algo.scan cond first last) (Own.scan cond2 first last) := by
  refine Algo.scan.fixpoint_induct cond last (fun f' => ∀ first, SimE e F (f' first) (Own.scan cond2 first last)) Sim.adm1 ?_ first
  intro f' ih first
  rw [Own.scan]
  sim
macro_rules | `(tactic| sim1) => `(tactic| (with_reducible refine S_scan ?_; intros))

theorem S_allOf {c : Slots} {first : Nat} {last : Nat} {pred : W → Bool} {pred2 : Loc → M V Bool} (hg : Tests e pred2 pred) : SimE e F (Algo.allOf c first last pred) (Own.allOf c first last pred2) := by
  unfold Algo.allOf Own.allOf
  sim
set_option hygiene false in
macro_rules | `(tactic| sim1) => `(tactic| with_reducible exact S_allOf hg)

theorem S_anyOf {c : Slots} {first : Nat} {last : Nat} {pred : W → Bool} {pred2 : Loc → M V Bool} (hg : Tests e pred2 pred) : SimE e F (Algo.anyOf c first last pred) (Own.anyOf c first last pred2) := by
  unfold Algo.anyOf Own.anyOf
  sim
set_option hygiene false in
macro_rules | `(tactic| sim1) => `(tactic| with_reducible exact S_anyOf hg)

theorem S_noneOf {c : Slots} {first : Nat} {last : Nat} {pred : W → Bool} {pred2 : Loc → M V Bool} (hg : Tests e pred2 pred) : SimE e F (Algo.noneOf c first last pred) (Own.noneOf c first last pred2) := by
  unfold Algo.noneOf Own.noneOf
  sim
set_option hygiene false in
macro_rules | `(tactic| sim1) => `(tactic| with_reducible exact S_noneOf hg)

theorem S_forEachLoop {c : Slots} {op : Loc → M W Unit} {op2 : Loc → M V Unit} {first : Nat} {last : Nat} {n : Nat} (hc : ∀ x, SimE e F (op x) (op2 x)) : SimE e F (Algo.forEachLoop c op first last n) (Own.forEachLoop c op2 first last n) := by
  refine Algo.forEachLoop.fixpoint_induct c op last (fun f' => ∀ first n, SimE e F (f' first n) (Own.forEachLoop c op2 first last n)) Sim.adm2 ?_ first n
  intro f' ih first n
  rw [Own.forEachLoop]
  sim
macro_rules | `(tactic| sim1) => `(tactic| (with_reducible refine S_forEachLoop ?_; intros))

theorem S_forEach {c : Slots} {first : Nat} {last : Nat} {op : Loc → M W Unit} {op2 : Loc → M V Unit} (hc : ∀ x, SimE e F (op x) (op2 x)) : SimE e F (Algo.forEach c first last op) (Own.forEach c first last op2) := by
  unfold Algo.forEach Own.forEach
  sim
macro_rules | `(tactic| sim1) => `(tactic| (with_reducible refine S_forEach ?_; intros))

theorem S_forEachN {c : Slots} {first : Nat} {n : Nat} {op : Loc → M W Unit} {op2 : Loc → M V Unit} (hc : ∀ x, SimE e F (op x) (op2 x)) : SimE e F (Algo.forEachN c first n op) (Own.forEachN c first n op2) := by
  induction n generalizing first with
  | zero => exact SimE.pure
  | succ n ih =>
    rw [Algo.forEachN, Own.forEachN]
    sim
macro_rules | `(tactic| sim1) => `(tactic| (with_reducible refine S_forEachN ?_; intros))

theorem S_countLoop {cond : Nat → M W Bool} {cond2 : Nat → M V Bool} {first : Nat} {last : Nat} {n : Nat} (hc : ∀ x, SimE e F (cond x) (cond2 x)) : SimE e F (Algo.countLoop cond first last n) (Own.countLoop cond2 first last n) := by
  refine Algo.countLoop.fixpoint_induct cond last (fun f' => ∀ first n, SimE e F (f' first n) (Own.countLoop cond2 first last n)) Sim.adm2 ?_ first n
  intro f' ih first n
  rw [Own.countLoop]
  sim
macro_rules | `(tactic| sim1) => `(tactic| (with_reducible refine S_countLoop ?_; intros))

theorem S_count {c : Slots} {first : Nat} {last : Nat} {value : Loc} {equal : W → W → Bool} {equal2 : Loc → Loc → M V Bool} (hf : Compares e equal2 equal) : SimE e F (Algo.count c first last value equal) (Own.count c first last value equal2) := by
  unfold Algo.count Own.count
  sim
set_option hygiene false in
macro_rules | `(tactic| sim1) => `(tactic| with_reducible exact S_count hf)

theorem S_countIf {c : Slots} {first : Nat} {last : Nat} {pred : W → Bool} {pred2 : Loc → M V Bool} (hg : Tests e pred2 pred) : SimE e F (Algo.countIf c first last pred) (Own.countIf c first last pred2) := by
  unfold Algo.countIf Own.countIf
  sim
set_option hygiene false in
macro_rules | `(tactic| sim1) => `(tactic| with_reducible exact S_countIf hg)

theorem S_mismatchLoop {c : Slots} {d : Slots} {pred : W → W → Bool} {pred2 : Loc → Loc → M V Bool} {first1 : Nat} {last1 : Nat} {first2 : Nat} (hf : Compares e pred2 pred) : SimE e F (Algo.mismatchLoop c d pred first1 last1 first2) (Own.mismatchLoop c d pred2 first1 last1 first2) := by
  refine Algo.mismatchLoop.fixpoint_induct c d pred last1 (fun f' => ∀ first1 first2, SimE e F (f' first1 first2) (Own.mismatchLoop c d pred2 first1 last1 first2)) Sim.adm2 ?_ first1 first2
  intro f' ih first1 first2
  rw [Own.mismatchLoop]
  sim
set_option hygiene false in
macro_rules | `(tactic| sim1) => `(tactic| with_reducible exact S_mismatchLoop hf)

theorem S_mismatch {c : Slots} {first1 : Nat} {last1 : Nat} {d : Slots} {first2 : Nat} {pred : W → W → Bool} {pred2 : Loc → Loc → M V Bool} (hf : Compares e pred2 pred) : SimE e F (Algo.mismatch c first1 last1 d first2 pred) (Own.mismatch c first1 last1 d first2 pred2) := by
  unfold Algo.mismatch Own.mismatch
  sim
set_option hygiene false in
macro_rules | `(tactic| sim1) => `(tactic| with_reducible exact S_mismatch hf)

theorem S_equal {c : Slots} {first1 : Nat} {last1 : Nat} {d : Slots} {first2 : Nat} {pred : W → W → Bool} {pred2 : Loc → Loc → M V Bool} (hf : Compares e pred2 pred) : SimE e F (Algo.equal c first1 last1 d first2 pred) (Own.equal c first1 last1 d first2 pred2) := by
  unfold Algo.equal Own.equal
  sim
set_option hygiene false in
macro_rules | `(tactic| sim1) => `(tactic| with_reducible exact S_equal hf)

theorem S_findBy {c : Slots} {first : Nat} {last : Nat} {value : Loc} {pred : W → W → Bool} {pred2 : Loc → Loc → M V Bool} (hf : Compares e pred2 pred) : SimE e F (Algo.findBy c first last value pred) (Own.findBy c first last value pred2) := by
  unfold Algo.findBy Own.findBy
  sim
set_option hygiene false in
macro_rules | `(tactic| sim1) => `(tactic| with_reducible exact S_findBy hf)

theorem S_findIf {c : Slots} {first : Nat} {last : Nat} {pred : W → Bool} {pred2 : Loc → M V Bool} (hg : Tests e pred2 pred) : SimE e F (Algo.findIf c first last pred) (Own.findIf c first last pred2) := by
  unfold Algo.findIf Own.findIf
  sim
set_option hygiene false in
macro_rules | `(tactic| sim1) => `(tactic| with_reducible exact S_findIf hg)

theorem S_findIfNot {c : Slots} {first : Nat} {last : Nat} {pred : W → Bool} {pred2 : Loc → M V Bool} (hg : Tests e pred2 pred) : SimE e F (Algo.findIfNot c first last pred) (Own.findIfNot c first last pred2) := by
  unfold Algo.findIfNot Own.findIfNot
  sim
set_option hygiene false in
macro_rules | `(tactic| sim1) => `(tactic| with_reducible exact S_findIfNot hg)

theorem S_amongLoop {l : Loc} {d : Slots} {pred : W → W → Bool} {pred2 : Loc → Loc → M V Bool} {sFirst : Nat} {sLast : Nat} (hf : Compares e pred2 pred) : SimE e F (Algo.amongLoop l d pred sFirst sLast) (Own.amongLoop l d pred2 sFirst sLast) := by
  refine Algo.amongLoop.fixpoint_induct l d pred sLast (fun f' => ∀ sFirst, SimE e F (f' sFirst) (Own.amongLoop l d pred2 sFirst sLast)) Sim.adm1 ?_ sFirst
  intro f' ih sFirst
  rw [Own.amongLoop]
  sim
set_option hygiene false in
macro_rules | `(tactic| sim1) => `(tactic| with_reducible exact S_amongLoop hf)

theorem S_findFirstOfLoop {c : Slots} {d : Slots} {pred : W → W → Bool} {pred2 : Loc → Loc → M V Bool} {first : Nat} {last : Nat} {sFirst : Nat} {sLast : Nat} (hf : Compares e pred2 pred) : SimE e F (Algo.findFirstOfLoop c d pred first last sFirst sLast) (Own.findFirstOfLoop c d pred2 first last sFirst sLast) := by
  refine Algo.findFirstOfLoop.fixpoint_induct c d pred last sFirst sLast (fun f' => ∀ first, SimE e F (f' first) (Own.findFirstOfLoop c d pred2 first last sFirst sLast)) Sim.adm1 ?_ first
  intro f' ih first
  rw [Own.findFirstOfLoop]
  sim
set_option hygiene false in
macro_rules | `(tactic| sim1) => `(tactic| with_reducible exact S_findFirstOfLoop hf)

theorem S_findFirstOf {c : Slots} {first : Nat} {last : Nat} {d : Slots} {sFirst : Nat} {sLast : Nat} {pred : W → W → Bool} {pred2 : Loc → Loc → M V Bool} (hf : Compares e pred2 pred) : SimE e F (Algo.findFirstOf c first last d sFirst sLast pred) (Own.findFirstOf c first last d sFirst sLast pred2) := by
  unfold Algo.findFirstOf Own.findFirstOf
  sim
set_option hygiene false in
macro_rules | `(tactic| sim1) => `(tactic| with_reducible exact S_findFirstOf hf)

theorem S_lastLoop {search : Nat → M W (Bool × Nat)} {search2 : Nat → M V (Bool × Nat)} {first : Nat} {acc : Bool × Nat} (hc : ∀ x, SimE e F (search x) (search2 x)) : SimE e F (Algo.lastLoop search first acc) (Own.lastLoop search2 first acc) := by
  refine Algo.lastLoop.fixpoint_induct search (fun f' => ∀ first acc, SimE e F (f' first acc) (Own.lastLoop search2 first acc)) Sim.adm2 ?_ first acc
  intro f' ih first acc
  rw [Own.lastLoop]
  sim
macro_rules | `(tactic| sim1) => `(tactic| (with_reducible refine S_lastLoop ?_; intros))

theorem S_findLastOf {c : Slots} {first : Nat} {last : Nat} {d : Slots} {sFirst : Nat} {sLast : Nat} {pred : W → W → Bool} {pred2 : Loc → Loc → M V Bool} (hf : Compares e pred2 pred) : SimE e F (Algo.findLastOf c first last d sFirst sLast pred) (Own.findLastOf c first last d sFirst sLast pred2) := by
  unfold Algo.findLastOf Own.findLastOf
  sim
set_option hygiene false in
macro_rules | `(tactic| sim1) => `(tactic| with_reducible exact S_findLastOf hf)

theorem S_adjacentLoop {c : Slots} {pred : W → W → Bool} {pred2 : Loc → Loc → M V Bool} {first : Nat} {next : Nat} {last : Nat} (hf : Compares e pred2 pred) : SimE e F (Algo.adjacentLoop c pred first next last) (Own.adjacentLoop c pred2 first next last) := by
  refine Algo.adjacentLoop.fixpoint_induct c pred last (fun f' => ∀ first next, SimE e F (f' first next) (Own.adjacentLoop c pred2 first next last)) Sim.adm2 ?_ first next
  intro f' ih first next
  rw [Own.adjacentLoop]
  sim
set_option hygiene false in
macro_rules | `(tactic| sim1) => `(tactic| with_reducible exact S_adjacentLoop hf)

theorem S_adjacentFind {c : Slots} {first : Nat} {last : Nat} {pred : W → W → Bool} {pred2 : Loc → Loc → M V Bool} (hf : Compares e pred2 pred) : SimE e F (Algo.adjacentFind c first last pred) (Own.adjacentFind c first last pred2) := by
  unfold Algo.adjacentFind Own.adjacentFind
  sim
set_option hygiene false in
macro_rules | `(tactic| sim1) => `(tactic| with_reducible exact S_adjacentFind hf)

theorem S_matchLoop {c : Slots} {d : Slots} {pred : W → W → Bool} {pred2 : Loc → Loc → M V Bool} {i : Nat} {last : Nat} {s : Nat} {sLast : Nat} (hf : Compares e pred2 pred) : SimE e F (Algo.matchLoop c d pred i last s sLast) (Own.matchLoop c d pred2 i last s sLast) := by
  refine Algo.matchLoop.fixpoint_induct c d pred last sLast (fun f' => ∀ i s, SimE e F (f' i s) (Own.matchLoop c d pred2 i last s sLast)) Sim.adm2 ?_ i s
  intro f' ih i s
  rw [Own.matchLoop]
  sim
set_option hygiene false in
macro_rules | `(tactic| sim1) => `(tactic| with_reducible exact S_matchLoop hf)

theorem S_searchLoop {c : Slots} {d : Slots} {pred : W → W → Bool} {pred2 : Loc → Loc → M V Bool} {first : Nat} {last : Nat} {sFirst : Nat} {sLast : Nat} (hf : Compares e pred2 pred) : SimE e F (Algo.searchLoop c d pred first last sFirst sLast) (Own.searchLoop c d pred2 first last sFirst sLast) := by
  refine Algo.searchLoop.fixpoint_induct c d pred last sFirst sLast (fun f' => ∀ first, SimE e F (f' first) (Own.searchLoop c d pred2 first last sFirst sLast)) Sim.adm1 ?_ first
  intro f' ih first
  rw [Own.searchLoop]
  sim
set_option hygiene false in
macro_rules | `(tactic| sim1) => `(tactic| with_reducible exact S_searchLoop hf)

theorem S_search {c : Slots} {first : Nat} {last : Nat} {d : Slots} {sFirst : Nat} {sLast : Nat} {pred : W → W → Bool} {pred2 : Loc → Loc → M V Bool} (hf : Compares e pred2 pred) : SimE e F (Algo.search c first last d sFirst sLast pred) (Own.search c first last d sFirst sLast pred2) := by
  unfold Algo.search Own.search
  sim
set_option hygiene false in
macro_rules | `(tactic| sim1) => `(tactic| with_reducible exact S_search hf)

theorem S_searchLast {c : Slots} {first : Nat} {last : Nat} {d : Slots} {sFirst : Nat} {sLast : Nat} {pred : W → W → Bool} {pred2 : Loc → Loc → M V Bool} (hf : Compares e pred2 pred) : SimE e F (Algo.searchLast c first last d sFirst sLast pred) (Own.searchLast c first last d sFirst sLast pred2) := by
  unfold Algo.searchLast Own.searchLast
  sim
set_option hygiene false in
macro_rules | `(tactic| sim1) => `(tactic| with_reducible exact S_searchLast hf)

theorem S_runLoop {c : Slots} {value : Loc} {pred : W → W → Bool} {pred2 : Loc → Loc → M V Bool} {n : Nat} {i : Nat} {last : Nat} (hf : Compares e pred2 pred) : SimE e F (Algo.runLoop c value pred n i last) (Own.runLoop c value pred2 n i last) := by
  refine Algo.runLoop.fixpoint_induct c value pred last (fun f' => ∀ n i, SimE e F (f' n i) (Own.runLoop c value pred2 n i last)) Sim.adm2 ?_ n i
  intro f' ih n i
  rw [Own.runLoop]
  sim
set_option hygiene false in
macro_rules | `(tactic| sim1) => `(tactic| with_reducible exact S_runLoop hf)

theorem S_searchNLoop {c : Slots} {value : Loc} {pred : W → W → Bool} {pred2 : Loc → Loc → M V Bool} {n : Nat} {i : Nat} {last : Nat} (hf : Compares e pred2 pred) : SimE e F (Algo.searchNLoop c value pred n i last) (Own.searchNLoop c value pred2 n i last) := by
  refine Algo.searchNLoop.fixpoint_induct c value pred n last (fun f' => ∀ i, SimE e F (f' i) (Own.searchNLoop c value pred2 n i last)) Sim.adm1 ?_ i
  intro f' ih i
  rw [Own.searchNLoop]
  sim
set_option hygiene false in
macro_rules | `(tactic| sim1) => `(tactic| with_reducible exact S_searchNLoop hf)

theorem S_searchN {c : Slots} {first : Nat} {last : Nat} {n : Nat} {value : Loc} {pred : W → W → Bool} {pred2 : Loc → Loc → M V Bool} (hf : Compares e pred2 pred) : SimE e F (Algo.searchN c first last n value pred) (Own.searchN c first last n value pred2) := by
  unfold Algo.searchN Own.searchN
  sim
set_option hygiene false in
macro_rules | `(tactic| sim1) => `(tactic| with_reducible exact S_searchN hf)

theorem S_searchLastN {c : Slots} {first : Nat} {last : Nat} {n : Nat} {value : Loc} {pred : W → W → Bool} {pred2 : Loc → Loc → M V Bool} (hf : Compares e pred2 pred) : SimE e F (Algo.searchLastN c first last n value pred) (Own.searchLastN c first last n value pred2) := by
  unfold Algo.searchLastN Own.searchLastN
  sim
set_option hygiene false in
macro_rules | `(tactic| sim1) => `(tactic| with_reducible exact S_searchLastN hf)

theorem S_boundLoop {right : Nat → M W Bool} {right2 : Nat → M V Bool} {first : Nat} {count : Nat} (hc : ∀ x, SimE e F (right x) (right2 x)) : SimE e F (Algo.boundLoop right first count) (Own.boundLoop right2 first count) := by
  refine Algo.boundLoop.fixpoint_induct right (fun f' => ∀ first count, SimE e F (f' first count) (Own.boundLoop right2 first count)) Sim.adm2 ?_ first count
  intro f' ih first count
  rw [Own.boundLoop]
  sim
macro_rules | `(tactic| sim1) => `(tactic| (with_reducible refine S_boundLoop ?_; intros))

theorem S_lowerBound {c : Slots} {first : Nat} {last : Nat} {value : Loc} {comp : W → W → Bool} {comp2 : Loc → Loc → M V Bool} (hf : Compares e comp2 comp) : SimE e F (Algo.lowerBound c first last value comp) (Own.lowerBound c first last value comp2) := by
  unfold Algo.lowerBound Own.lowerBound
  sim
set_option hygiene false in
macro_rules | `(tactic| sim1) => `(tactic| with_reducible exact S_lowerBound hf)

theorem S_upperBound {c : Slots} {first : Nat} {last : Nat} {value : Loc} {comp : W → W → Bool} {comp2 : Loc → Loc → M V Bool} (hf : Compares e comp2 comp) : SimE e F (Algo.upperBound c first last value comp) (Own.upperBound c first last value comp2) := by
  unfold Algo.upperBound Own.upperBound
  sim
set_option hygiene false in
macro_rules | `(tactic| sim1) => `(tactic| with_reducible exact S_upperBound hf)

theorem S_binarySearch {c : Slots} {first : Nat} {last : Nat} {value : Loc} {comp : W → W → Bool} {comp2 : Loc → Loc → M V Bool} (hf : Compares e comp2 comp) : SimE e F (Algo.binarySearch c first last value comp) (Own.binarySearch c first last value comp2) := by
  unfold Algo.binarySearch Own.binarySearch
  sim
set_option hygiene false in
macro_rules | `(tactic| sim1) => `(tactic| with_reducible exact S_binarySearch hf)

theorem S_equalRange {c : Slots} {first : Nat} {last : Nat} {value : Loc} {comp : W → W → Bool} {comp2 : Loc → Loc → M V Bool} (hf : Compares e comp2 comp) : SimE e F (Algo.equalRange c first last value comp) (Own.equalRange c first last value comp2) := by
  unfold Algo.equalRange Own.equalRange
  sim
set_option hygiene false in
macro_rules | `(tactic| sim1) => `(tactic| with_reducible exact S_equalRange hf)

theorem S_extLoop {better : Nat → Nat → M W Bool} {better2 : Nat → Nat → M V Bool} {best : Nat} {first : Nat} {last : Nat} (hc : ∀ x y, SimE e F (better x y) (better2 x y)) : SimE e F (Algo.extLoop better best first last) (Own.extLoop better2 best first last) := by
  refine Algo.extLoop.fixpoint_induct better last (fun f' => ∀ best first, SimE e F (f' best first) (Own.extLoop better2 best first last)) Sim.adm2 ?_ best first
  intro f' ih best first
  rw [Own.extLoop]
  sim
macro_rules | `(tactic| sim1) => `(tactic| (with_reducible refine S_extLoop ?_; intros))

theorem S_maxElement {c : Slots} {first : Nat} {last : Nat} {comp : W → W → Bool} {comp2 : Loc → Loc → M V Bool} (hf : Compares e comp2 comp) : SimE e F (Algo.maxElement c first last comp) (Own.maxElement c first last comp2) := by
  unfold Algo.maxElement Own.maxElement
  sim
set_option hygiene false in
macro_rules | `(tactic| sim1) => `(tactic| with_reducible exact S_maxElement hf)

theorem S_minElement {c : Slots} {first : Nat} {last : Nat} {comp : W → W → Bool} {comp2 : Loc → Loc → M V Bool} (hf : Compares e comp2 comp) : SimE e F (Algo.minElement c first last comp) (Own.minElement c first last comp2) := by
  unfold Algo.minElement Own.minElement
  sim
set_option hygiene false in
macro_rules | `(tactic| sim1) => `(tactic| with_reducible exact S_minElement hf)

theorem S_minmaxLoop {c : Slots} {comp : W → W → Bool} {comp2 : Loc → Loc → M V Bool} {mn : Nat} {mx : Nat} {first : Nat} {last : Nat} (hf : Compares e comp2 comp) : SimE e F (Algo.minmaxLoop c comp mn mx first last) (Own.minmaxLoop c comp2 mn mx first last) := by
  refine Algo.minmaxLoop.fixpoint_induct c comp last (fun f' => ∀ mn mx first, SimE e F (f' mn mx first) (Own.minmaxLoop c comp2 mn mx first last)) Sim.adm3 ?_ mn mx first
  intro f' ih mn mx first
  rw [Own.minmaxLoop]
  sim
set_option hygiene false in
macro_rules | `(tactic| sim1) => `(tactic| with_reducible exact S_minmaxLoop hf)

theorem S_minmaxElement {c : Slots} {first : Nat} {last : Nat} {comp : W → W → Bool} {comp2 : Loc → Loc → M V Bool} (hf : Compares e comp2 comp) : SimE e F (Algo.minmaxElement c first last comp) (Own.minmaxElement c first last comp2) := by
  unfold Algo.minmaxElement Own.minmaxElement
  sim
set_option hygiene false in
macro_rules | `(tactic| sim1) => `(tactic| with_reducible exact S_minmaxElement hf)

theorem S_lexLoop {c : Slots} {d : Slots} {comp : W → W → Bool} {comp2 : Loc → Loc → M V Bool} {first1 : Nat} {last1 : Nat} {first2 : Nat} {last2 : Nat} (hf : Compares e comp2 comp) : SimE e F (Algo.lexLoop c d comp first1 last1 first2 last2) (Own.lexLoop c d comp2 first1 last1 first2 last2) := by
  refine Algo.lexLoop.fixpoint_induct c d comp last1 last2 (fun f' => ∀ first1 first2, SimE e F (f' first1 first2) (Own.lexLoop c d comp2 first1 last1 first2 last2)) Sim.adm2 ?_ first1 first2
  intro f' ih first1 first2
  rw [Own.lexLoop]
  sim
set_option hygiene false in
macro_rules | `(tactic| sim1) => `(tactic| with_reducible exact S_lexLoop hf)

theorem S_lexCompare {c : Slots} {first1 : Nat} {last1 : Nat} {d : Slots} {first2 : Nat} {last2 : Nat} {comp : W → W → Bool} {comp2 : Loc → Loc → M V Bool} (hf : Compares e comp2 comp) : SimE e F (Algo.lexCompare c first1 last1 d first2 last2 comp) (Own.lexCompare c first1 last1 d first2 last2 comp2) := by
  unfold Algo.lexCompare Own.lexCompare
  sim
set_option hygiene false in
macro_rules | `(tactic| sim1) => `(tactic| with_reducible exact S_lexCompare hf)

theorem S_copyLoop {c : Slots} {d : Slots} {first : Nat} {last : Nat} {dFirst : Nat} {n : Nat} : SimE e F (Algo.copyLoop c d first last dFirst n) (Own.copyLoop o c d first last dFirst n) := by
  refine Algo.copyLoop.fixpoint_induct c d last (fun f' => ∀ first dFirst n, SimE e F (f' first dFirst n) (Own.copyLoop o c d first last dFirst n)) Sim.adm3 ?_ first dFirst n
  intro f' ih first dFirst n
  rw [Own.copyLoop]
  sim
set_option hygiene false in
macro_rules | `(tactic| sim1) => `(tactic| with_reducible exact S_copyLoop)

theorem S_copy {c : Slots} {first : Nat} {last : Nat} {d : Slots} {dFirst : Nat} : SimE e F (Algo.copy c first last d dFirst) (Own.copy o c first last d dFirst) := by
  unfold Algo.copy Own.copy
  sim
set_option hygiene false in
macro_rules | `(tactic| sim1) => `(tactic| with_reducible exact S_copy)

theorem S_copyIfLoop {cond : Nat → M W Bool} {cond2 : Nat → M V Bool} {c : Slots} {d : Slots} {first : Nat} {last : Nat} {dFirst : Nat} {n : Nat} (hc : ∀ x, SimE e F (cond x) (cond2 x)) : SimE e F (Algo.copyIfLoop cond c d first last dFirst n) (Own.copyIfLoop o cond2 c d first last dFirst n) := by
  refine Algo.copyIfLoop.fixpoint_induct cond c d last (fun f' => ∀ first dFirst n, SimE e F (f' first dFirst n) (Own.copyIfLoop o cond2 c d first last dFirst n)) Sim.adm3 ?_ first dFirst n
  intro f' ih first dFirst n
  rw [Own.copyIfLoop]
  sim
macro_rules | `(tactic| sim1) => `(tactic| (with_reducible refine S_copyIfLoop ?_; intros))

theorem S_copyIf {c : Slots} {first : Nat} {last : Nat} {d : Slots} {dFirst : Nat} {pred : W → Bool} {pred2 : Loc → M V Bool} (hg : Tests e pred2 pred) : SimE e F (Algo.copyIf c first last d dFirst pred) (Own.copyIf o c first last d dFirst pred2) := by
  unfold Algo.copyIf Own.copyIf
  sim
set_option hygiene false in
macro_rules | `(tactic| sim1) => `(tactic| with_reducible exact S_copyIf hg)

theorem S_copyBackwardLoop {c : Slots} {d : Slots} {first : Nat} {last : Nat} {dLast : Nat} {n : Nat} : SimE e F (Algo.copyBackwardLoop c d first last dLast n) (Own.copyBackwardLoop o c d first last dLast n) := by
  refine Algo.copyBackwardLoop.fixpoint_induct c d first (fun f' => ∀ last dLast n, SimE e F (f' last dLast n) (Own.copyBackwardLoop o c d first last dLast n)) Sim.adm3 ?_ last dLast n
  intro f' ih last dLast n
  rw [Own.copyBackwardLoop]
  sim
set_option hygiene false in
macro_rules | `(tactic| sim1) => `(tactic| with_reducible exact S_copyBackwardLoop)

theorem S_copyBackward {c : Slots} {first : Nat} {last : Nat} {d : Slots} {dLast : Nat} : SimE e F (Algo.copyBackward c first last d dLast) (Own.copyBackward o c first last d dLast) := by
  unfold Algo.copyBackward Own.copyBackward
  sim
set_option hygiene false in
macro_rules | `(tactic| sim1) => `(tactic| with_reducible exact S_copyBackward)

theorem S_fillLoop {c : Slots} {value : Loc} {first : Nat} {last : Nat} {n : Nat} : SimE e F (Algo.fillLoop c value first last n) (Own.fillLoop o c value first last n) := by
  refine Algo.fillLoop.fixpoint_induct c value last (fun f' => ∀ first n, SimE e F (f' first n) (Own.fillLoop o c value first last n)) Sim.adm2 ?_ first n
  intro f' ih first n
  rw [Own.fillLoop]
  sim
set_option hygiene false in
macro_rules | `(tactic| sim1) => `(tactic| with_reducible exact S_fillLoop)

theorem S_fill {c : Slots} {first : Nat} {last : Nat} {value : Loc} : SimE e F (Algo.fill c first last value) (Own.fill o c first last value) := by
  unfold Algo.fill Own.fill
  sim
set_option hygiene false in
macro_rules | `(tactic| sim1) => `(tactic| with_reducible exact S_fill)

theorem S_fillN {c : Slots} {first : Nat} {n : Nat} {value : Loc} : SimE e F (Algo.fillN c first n value) (Own.fillN o c first n value) := by
  induction n generalizing first with
  | zero => exact SimE.pure
  | succ n ih =>
    rw [Algo.fillN, Own.fillN]
    sim
set_option hygiene false in
macro_rules | `(tactic| sim1) => `(tactic| with_reducible exact S_fillN)

theorem S_removeLoop {gone : Nat → M W Bool} {gone2 : Nat → M V Bool} {c : Slots} {first : Nat} {i : Nat} {last : Nat} {n : Nat} (hc : ∀ x, SimE e F (gone x) (gone2 x)) : SimE e F (Algo.removeLoop gone c first i last n) (Own.removeLoop o gone2 c first i last n) := by
  refine Algo.removeLoop.fixpoint_induct gone c last (fun f' => ∀ first i n, SimE e F (f' first i n) (Own.removeLoop o gone2 c first i last n)) Sim.adm3 ?_ first i n
  intro f' ih first i n
  rw [Own.removeLoop]
  sim
macro_rules | `(tactic| sim1) => `(tactic| (with_reducible refine S_removeLoop ?_; intros))

theorem S_remove {c : Slots} {first : Nat} {last : Nat} {value : Loc} {eq : W → W → Bool} {eq2 : Loc → Loc → M V Bool} (hf : Compares e eq2 eq) : SimE e F (Algo.remove c first last value eq) (Own.remove o c first last value eq2) := by
  unfold Algo.remove Own.remove
  sim
set_option hygiene false in
macro_rules | `(tactic| sim1) => `(tactic| with_reducible exact S_remove hf)

theorem S_removeIf {c : Slots} {first : Nat} {last : Nat} {pred : W → Bool} {pred2 : Loc → M V Bool} (hg : Tests e pred2 pred) : SimE e F (Algo.removeIf c first last pred) (Own.removeIf o c first last pred2) := by
  unfold Algo.removeIf Own.removeIf
  sim
set_option hygiene false in
macro_rules | `(tactic| sim1) => `(tactic| with_reducible exact S_removeIf hg)

theorem S_removeCopy {c : Slots} {first : Nat} {last : Nat} {d : Slots} {dFirst : Nat} {value : Loc} {eq : W → W → Bool} {eq2 : Loc → Loc → M V Bool} (hf : Compares e eq2 eq) : SimE e F (Algo.removeCopy c first last d dFirst value eq) (Own.removeCopy o c first last d dFirst value eq2) := by
  unfold Algo.removeCopy Own.removeCopy
  sim
set_option hygiene false in
macro_rules | `(tactic| sim1) => `(tactic| with_reducible exact S_removeCopy hf)

theorem S_removeCopyIf {c : Slots} {first : Nat} {last : Nat} {d : Slots} {dFirst : Nat} {pred : W → Bool} {pred2 : Loc → M V Bool} (hg : Tests e pred2 pred) : SimE e F (Algo.removeCopyIf c first last d dFirst pred) (Own.removeCopyIf o c first last d dFirst pred2) := by
  unfold Algo.removeCopyIf Own.removeCopyIf
  sim
set_option hygiene false in
macro_rules | `(tactic| sim1) => `(tactic| with_reducible exact S_removeCopyIf hg)

theorem S_replaceLoop {cond : Nat → M W Bool} {cond2 : Nat → M V Bool} {c : Slots} {new : Loc} {first : Nat} {last : Nat} {n : Nat} (hc : ∀ x, SimE e F (cond x) (cond2 x)) : SimE e F (Algo.replaceLoop cond c new first last n) (Own.replaceLoop o cond2 c new first last n) := by
  refine Algo.replaceLoop.fixpoint_induct cond c new last (fun f' => ∀ first n, SimE e F (f' first n) (Own.replaceLoop o cond2 c new first last n)) Sim.adm2 ?_ first n
  intro f' ih first n
  rw [Own.replaceLoop]
  sim
macro_rules | `(tactic| sim1) => `(tactic| (with_reducible refine S_replaceLoop ?_; intros))

theorem S_replace {c : Slots} {first : Nat} {last : Nat} {old : Loc} {new : Loc} {eq : W → W → Bool} {eq2 : Loc → Loc → M V Bool} (hf : Compares e eq2 eq) : SimE e F (Algo.replace c first last old new eq) (Own.replace o c first last old new eq2) := by
  unfold Algo.replace Own.replace
  sim
set_option hygiene false in
macro_rules | `(tactic| sim1) => `(tactic| with_reducible exact S_replace hf)

theorem S_replaceIf {c : Slots} {first : Nat} {last : Nat} {pred : W → Bool} {pred2 : Loc → M V Bool} {new : Loc} (hg : Tests e pred2 pred) : SimE e F (Algo.replaceIf c first last pred new) (Own.replaceIf o c first last pred2 new) := by
  unfold Algo.replaceIf Own.replaceIf
  sim
set_option hygiene false in
macro_rules | `(tactic| sim1) => `(tactic| with_reducible exact S_replaceIf hg)

theorem S_replaceCopyLoop {cond : Nat → M W Bool} {cond2 : Nat → M V Bool} {c : Slots} {d : Slots} {new : Loc} {first : Nat} {last : Nat} {dFirst : Nat} {n : Nat} (hc : ∀ x, SimE e F (cond x) (cond2 x)) : SimE e F (Algo.replaceCopyLoop cond c d new first last dFirst n) (Own.replaceCopyLoop o cond2 c d new first last dFirst n) := by
  refine Algo.replaceCopyLoop.fixpoint_induct cond c d new last (fun f' => ∀ first dFirst n, SimE e F (f' first dFirst n) (Own.replaceCopyLoop o cond2 c d new first last dFirst n)) Sim.adm3 ?_ first dFirst n
  intro f' ih first dFirst n
  rw [Own.replaceCopyLoop]
  sim
macro_rules | `(tactic| sim1) => `(tactic| (with_reducible refine S_replaceCopyLoop ?_; intros))

theorem S_replaceCopy {c : Slots} {first : Nat} {last : Nat} {d : Slots} {dFirst : Nat} {old : Loc} {new : Loc} {eq : W → W → Bool} {eq2 : Loc → Loc → M V Bool} (hf : Compares e eq2 eq) : SimE e F (Algo.replaceCopy c first last d dFirst old new eq) (Own.replaceCopy o c first last d dFirst old new eq2) := by
  unfold Algo.replaceCopy Own.replaceCopy
  sim
set_option hygiene false in
macro_rules | `(tactic| sim1) => `(tactic| with_reducible exact S_replaceCopy hf)

theorem S_replaceCopyIf {c : Slots} {first : Nat} {last : Nat} {d : Slots} {dFirst : Nat} {pred : W → Bool} {pred2 : Loc → M V Bool} {new : Loc} (hg : Tests e pred2 pred) : SimE e F (Algo.replaceCopyIf c first last d dFirst pred new) (Own.replaceCopyIf o c first last d dFirst pred2 new) := by
  unfold Algo.replaceCopyIf Own.replaceCopyIf
  sim
set_option hygiene false in
macro_rules | `(tactic| sim1) => `(tactic| with_reducible exact S_replaceCopyIf hg)

theorem S_swapRangeLoop {c : Slots} {d : Slots} {first1 : Nat} {last1 : Nat} {first2 : Nat} {n : Nat} : SimE e F (Algo.swapRangeLoop c d first1 last1 first2 n) (Own.swapRangeLoop o c d first1 last1 first2 n) := by
  refine Algo.swapRangeLoop.fixpoint_induct c d last1 (fun f' => ∀ first1 first2 n, SimE e F (f' first1 first2 n) (Own.swapRangeLoop o c d first1 last1 first2 n)) Sim.adm3 ?_ first1 first2 n
  intro f' ih first1 first2 n
  rw [Own.swapRangeLoop]
  sim
set_option hygiene false in
macro_rules | `(tactic| sim1) => `(tactic| with_reducible exact S_swapRangeLoop)

theorem S_swapRange {c : Slots} {first1 : Nat} {last1 : Nat} {d : Slots} {first2 : Nat} : SimE e F (Algo.swapRange c first1 last1 d first2) (Own.swapRange o c first1 last1 d first2) := by
  unfold Algo.swapRange Own.swapRange
  sim
set_option hygiene false in
macro_rules | `(tactic| sim1) => `(tactic| with_reducible exact S_swapRange)

theorem S_reverseLoop {c : Slots} {first : Nat} {last : Nat} {n : Nat} : SimE e F (Algo.reverseLoop c first last n) (Own.reverseLoop o c first last n) := by
  refine Algo.reverseLoop.fixpoint_induct c (fun f' => ∀ first last n, SimE e F (f' first last n) (Own.reverseLoop o c first last n)) Sim.adm3 ?_ first last n
  intro f' ih first last n
  rw [Own.reverseLoop]
  sim
set_option hygiene false in
macro_rules | `(tactic| sim1) => `(tactic| with_reducible exact S_reverseLoop)

theorem S_reverse {c : Slots} {first : Nat} {last : Nat} : SimE e F (Algo.reverse c first last) (Own.reverse o c first last) := by
  unfold Algo.reverse Own.reverse
  sim
set_option hygiene false in
macro_rules | `(tactic| sim1) => `(tactic| with_reducible exact S_reverse)

theorem S_reverseCopyLoop {c : Slots} {d : Slots} {first : Nat} {last : Nat} {dFirst : Nat} {n : Nat} : SimE e F (Algo.reverseCopyLoop c d first last dFirst n) (Own.reverseCopyLoop o c d first last dFirst n) := by
  refine Algo.reverseCopyLoop.fixpoint_induct c d first (fun f' => ∀ last dFirst n, SimE e F (f' last dFirst n) (Own.reverseCopyLoop o c d first last dFirst n)) Sim.adm3 ?_ last dFirst n
  intro f' ih last dFirst n
  rw [Own.reverseCopyLoop]
  sim
set_option hygiene false in
macro_rules | `(tactic| sim1) => `(tactic| with_reducible exact S_reverseCopyLoop)

theorem S_reverseCopy {c : Slots} {first : Nat} {last : Nat} {d : Slots} {dFirst : Nat} : SimE e F (Algo.reverseCopy c first last d dFirst) (Own.reverseCopy o c first last d dFirst) := by
  unfold Algo.reverseCopy Own.reverseCopy
  sim
set_option hygiene false in
macro_rules | `(tactic| sim1) => `(tactic| with_reducible exact S_reverseCopy)

theorem S_rotateLoop1 {c : Slots} {first : Nat} {nFirst : Nat} {next : Nat} {last : Nat} : SimE e F (Algo.rotateLoop1 c first nFirst next last) (Own.rotateLoop1 o c first nFirst next last) := by
  refine Algo.rotateLoop1.fixpoint_induct c last (fun f' => ∀ first nFirst next, SimE e F (f' first nFirst next) (Own.rotateLoop1 o c first nFirst next last)) Sim.adm3 ?_ first nFirst next
  intro f' ih first nFirst next
  rw [Own.rotateLoop1]
  sim
set_option hygiene false in
macro_rules | `(tactic| sim1) => `(tactic| with_reducible exact S_rotateLoop1)

theorem S_rotateLoop2 {c : Slots} {first : Nat} {nFirst : Nat} {next : Nat} {last : Nat} : SimE e F (Algo.rotateLoop2 c first nFirst next last) (Own.rotateLoop2 o c first nFirst next last) := by
  refine Algo.rotateLoop2.fixpoint_induct c last (fun f' => ∀ first nFirst next, SimE e F (f' first nFirst next) (Own.rotateLoop2 o c first nFirst next last)) Sim.adm3 ?_ first nFirst next
  intro f' ih first nFirst next
  rw [Own.rotateLoop2]
  sim
set_option hygiene false in
macro_rules | `(tactic| sim1) => `(tactic| with_reducible exact S_rotateLoop2)

theorem S_rotate {c : Slots} {first : Nat} {nFirst : Nat} {last : Nat} : SimE e F (Algo.rotate c first nFirst last) (Own.rotate o c first nFirst last) := by
  unfold Algo.rotate Own.rotate
  sim
set_option hygiene false in
macro_rules | `(tactic| sim1) => `(tactic| with_reducible exact S_rotate)

theorem S_rotateCopy {c : Slots} {first : Nat} {nFirst : Nat} {last : Nat} {d : Slots} {dFirst : Nat} : SimE e F (Algo.rotateCopy c first nFirst last d dFirst) (Own.rotateCopy o c first nFirst last d dFirst) := by
  unfold Algo.rotateCopy Own.rotateCopy
  sim
set_option hygiene false in
macro_rules | `(tactic| sim1) => `(tactic| with_reducible exact S_rotateCopy)

theorem S_shuffleLoop {c : Slots} {first : Nat} {r : Nat → Nat} {n : Nat} : SimE e F (Algo.shuffleLoop c first r n) (Own.shuffleLoop o c first r n) := by
  induction n with
  | zero => exact SimE.pure
  | succ n ih =>
    rw [Algo.shuffleLoop, Own.shuffleLoop]
    sim
set_option hygiene false in
macro_rules | `(tactic| sim1) => `(tactic| with_reducible exact S_shuffleLoop)

theorem S_shuffle {c : Slots} {first : Nat} {last : Nat} {r : Nat → Nat} : SimE e F (Algo.shuffle c first last r) (Own.shuffle o c first last r) := by
  unfold Algo.shuffle Own.shuffle
  sim
set_option hygiene false in
macro_rules | `(tactic| sim1) => `(tactic| with_reducible exact S_shuffle)

theorem S_uniqueLoop {c : Slots} {pred : W → W → Bool} {pred2 : Loc → Loc → M V Bool} {first : Nat} {next : Nat} {last : Nat} {n : Nat} (hf : Compares e pred2 pred) : SimE e F (Algo.uniqueLoop c pred first next last n) (Own.uniqueLoop o c pred2 first next last n) := by
  refine Algo.uniqueLoop.fixpoint_induct c pred last (fun f' => ∀ first next n, SimE e F (f' first next n) (Own.uniqueLoop o c pred2 first next last n)) Sim.adm3 ?_ first next n
  intro f' ih first next n
  rw [Own.uniqueLoop]
  sim
set_option hygiene false in
macro_rules | `(tactic| sim1) => `(tactic| with_reducible exact S_uniqueLoop hf)

theorem S_unique {c : Slots} {first : Nat} {last : Nat} {pred : W → W → Bool} {pred2 : Loc → Loc → M V Bool} (hf : Compares e pred2 pred) : SimE e F (Algo.unique c first last pred) (Own.unique o c first last pred2) := by
  unfold Algo.unique Own.unique
  sim
set_option hygiene false in
macro_rules | `(tactic| sim1) => `(tactic| with_reducible exact S_unique hf)

theorem S_uniqueCopyLoop {c : Slots} {d : Slots} {pred : W → W → Bool} {pred2 : Loc → Loc → M V Bool} {first : Nat} {last : Nat} {dFirst : Nat} {n : Nat} (hf : Compares e pred2 pred) : SimE e F (Algo.uniqueCopyLoop c d pred first last dFirst n) (Own.uniqueCopyLoop o c d pred2 first last dFirst n) := by
  refine Algo.uniqueCopyLoop.fixpoint_induct c d pred last (fun f' => ∀ first dFirst n, SimE e F (f' first dFirst n) (Own.uniqueCopyLoop o c d pred2 first last dFirst n)) Sim.adm3 ?_ first dFirst n
  intro f' ih first dFirst n
  rw [Own.uniqueCopyLoop]
  sim
set_option hygiene false in
macro_rules | `(tactic| sim1) => `(tactic| with_reducible exact S_uniqueCopyLoop hf)

theorem S_uniqueCopy {c : Slots} {first : Nat} {last : Nat} {d : Slots} {dFirst : Nat} {pred : W → W → Bool} {pred2 : Loc → Loc → M V Bool} (hf : Compares e pred2 pred) : SimE e F (Algo.uniqueCopy c first last d dFirst pred) (Own.uniqueCopy o c first last d dFirst pred2) := by
  unfold Algo.uniqueCopy Own.uniqueCopy
  sim
set_option hygiene false in
macro_rules | `(tactic| sim1) => `(tactic| with_reducible exact S_uniqueCopy hf)

theorem S_skipTrue {c : Slots} {pred : W → Bool} {pred2 : Loc → M V Bool} {first : Nat} {last : Nat} (hg : Tests e pred2 pred) : SimE e F (Algo.skipTrue c pred first last) (Own.skipTrue c pred2 first last) := by
  refine Algo.skipTrue.fixpoint_induct c pred last (fun f' => ∀ first, SimE e F (f' first) (Own.skipTrue c pred2 first last)) Sim.adm1 ?_ first
  intro f' ih first
  rw [Own.skipTrue]
  sim
set_option hygiene false in
macro_rules | `(tactic| sim1) => `(tactic| with_reducible exact S_skipTrue hg)

theorem S_noneTrue {c : Slots} {pred : W → Bool} {pred2 : Loc → M V Bool} {first : Nat} {last : Nat} (hg : Tests e pred2 pred) : SimE e F (Algo.noneTrue c pred first last) (Own.noneTrue c pred2 first last) := by
  refine Algo.noneTrue.fixpoint_induct c pred last (fun f' => ∀ first, SimE e F (f' first) (Own.noneTrue c pred2 first last)) Sim.adm1 ?_ first
  intro f' ih first
  rw [Own.noneTrue]
  sim
set_option hygiene false in
macro_rules | `(tactic| sim1) => `(tactic| with_reducible exact S_noneTrue hg)

theorem S_isPartitioned {c : Slots} {first : Nat} {last : Nat} {pred : W → Bool} {pred2 : Loc → M V Bool} (hg : Tests e pred2 pred) : SimE e F (Algo.isPartitioned c first last pred) (Own.isPartitioned c first last pred2) := by
  unfold Algo.isPartitioned Own.isPartitioned
  sim
set_option hygiene false in
macro_rules | `(tactic| sim1) => `(tactic| with_reducible exact S_isPartitioned hg)

theorem S_partitionLoop {c : Slots} {pred : W → Bool} {pred2 : Loc → M V Bool} {first : Nat} {next : Nat} {last : Nat} (hg : Tests e pred2 pred) : SimE e F (Algo.partitionLoop c pred first next last) (Own.partitionLoop o c pred2 first next last) := by
  refine Algo.partitionLoop.fixpoint_induct c pred last (fun f' => ∀ first next, SimE e F (f' first next) (Own.partitionLoop o c pred2 first next last)) Sim.adm2 ?_ first next
  intro f' ih first next
  rw [Own.partitionLoop]
  sim
set_option hygiene false in
macro_rules | `(tactic| sim1) => `(tactic| with_reducible exact S_partitionLoop hg)

theorem S_partition {c : Slots} {first : Nat} {last : Nat} {pred : W → Bool} {pred2 : Loc → M V Bool} (hg : Tests e pred2 pred) : SimE e F (Algo.partition c first last pred) (Own.partition o c first last pred2) := by
  unfold Algo.partition Own.partition
  sim
set_option hygiene false in
macro_rules | `(tactic| sim1) => `(tactic| with_reducible exact S_partition hg)

theorem S_partitionCopyLoop {c : Slots} {d : Slots} {e2 : Slots} {pred : W → Bool} {pred2 : Loc → M V Bool} {first : Nat} {last : Nat} {dt : Nat} {df : Nat} {n : Nat} (hg : Tests e pred2 pred) : SimE e F (Algo.partitionCopyLoop c d e2 pred first last dt df n) (Own.partitionCopyLoop o c d e2 pred2 first last dt df n) := by
  refine Algo.partitionCopyLoop.fixpoint_induct c d e2 pred last (fun f' => ∀ first dt df n, SimE e F (f' first dt df n) (Own.partitionCopyLoop o c d e2 pred2 first last dt df n)) Sim.adm4 ?_ first dt df n
  intro f' ih first dt df n
  rw [Own.partitionCopyLoop]
  sim
set_option hygiene false in
macro_rules | `(tactic| sim1) => `(tactic| with_reducible exact S_partitionCopyLoop hg)

theorem S_partitionCopy {c : Slots} {first : Nat} {last : Nat} {d : Slots} {dFirstTrue : Nat} {e2 : Slots} {dFirstFalse : Nat} {pred : W → Bool} {pred2 : Loc → M V Bool} (hg : Tests e pred2 pred) : SimE e F (Algo.partitionCopy c first last d dFirstTrue e2 dFirstFalse pred) (Own.partitionCopy o c first last d dFirstTrue e2 dFirstFalse pred2) := by
  unfold Algo.partitionCopy Own.partitionCopy
  sim
set_option hygiene false in
macro_rules | `(tactic| sim1) => `(tactic| with_reducible exact S_partitionCopy hg)

theorem S_partitionPoint {c : Slots} {first : Nat} {last : Nat} {pred : W → Bool} {pred2 : Loc → M V Bool} (hg : Tests e pred2 pred) : SimE e F (Algo.partitionPoint c first last pred) (Own.partitionPoint c first last pred2) := by
  unfold Algo.partitionPoint Own.partitionPoint
  sim
set_option hygiene false in
macro_rules | `(tactic| sim1) => `(tactic| with_reducible exact S_partitionPoint hg)

theorem S_mergeLoop {c : Slots} {c' : Slots} {d : Slots} {comp : W → W → Bool} {comp2 : Loc → Loc → M V Bool} {first1 : Nat} {last1 : Nat} {first2 : Nat} {last2 : Nat} {dFirst : Nat} {n : Nat} (hf : Compares e comp2 comp) : SimE e F (Algo.mergeLoop c c' d comp first1 last1 first2 last2 dFirst n) (Own.mergeLoop o c c' d comp2 first1 last1 first2 last2 dFirst n) := by
  refine Algo.mergeLoop.fixpoint_induct c c' d comp last1 last2 (fun f' => ∀ first1 first2 dFirst n, SimE e F (f' first1 first2 dFirst n) (Own.mergeLoop o c c' d comp2 first1 last1 first2 last2 dFirst n)) Sim.adm4 ?_ first1 first2 dFirst n
  intro f' ih first1 first2 dFirst n
  rw [Own.mergeLoop]
  sim
set_option hygiene false in
macro_rules | `(tactic| sim1) => `(tactic| with_reducible exact S_mergeLoop hf)

theorem S_merge {c : Slots} {first1 : Nat} {last1 : Nat} {c' : Slots} {first2 : Nat} {last2 : Nat} {d : Slots} {dFirst : Nat} {comp : W → W → Bool} {comp2 : Loc → Loc → M V Bool} (hf : Compares e comp2 comp) : SimE e F (Algo.merge c first1 last1 c' first2 last2 d dFirst comp) (Own.merge o c first1 last1 c' first2 last2 d dFirst comp2) := by
  unfold Algo.merge Own.merge
  sim
set_option hygiene false in
macro_rules | `(tactic| sim1) => `(tactic| with_reducible exact S_merge hf)

theorem S_includesLoop {c : Slots} {c' : Slots} {comp : W → W → Bool} {comp2 : Loc → Loc → M V Bool} {first1 : Nat} {last1 : Nat} {first2 : Nat} {last2 : Nat} (hf : Compares e comp2 comp) : SimE e F (Algo.includesLoop c c' comp first1 last1 first2 last2) (Own.includesLoop c c' comp2 first1 last1 first2 last2) := by
  refine Algo.includesLoop.fixpoint_induct c c' comp last1 last2 (fun f' => ∀ first1 first2, SimE e F (f' first1 first2) (Own.includesLoop c c' comp2 first1 last1 first2 last2)) Sim.adm2 ?_ first1 first2
  intro f' ih first1 first2
  rw [Own.includesLoop]
  sim
set_option hygiene false in
macro_rules | `(tactic| sim1) => `(tactic| with_reducible exact S_includesLoop hf)

theorem S_includes {c : Slots} {first1 : Nat} {last1 : Nat} {c' : Slots} {first2 : Nat} {last2 : Nat} {comp : W → W → Bool} {comp2 : Loc → Loc → M V Bool} (hf : Compares e comp2 comp) : SimE e F (Algo.includes c first1 last1 c' first2 last2 comp) (Own.includes c first1 last1 c' first2 last2 comp2) := by
  unfold Algo.includes Own.includes
  sim
set_option hygiene false in
macro_rules | `(tactic| sim1) => `(tactic| with_reducible exact S_includes hf)

theorem S_differenceLoop {c : Slots} {c' : Slots} {d : Slots} {comp : W → W → Bool} {comp2 : Loc → Loc → M V Bool} {first1 : Nat} {last1 : Nat} {first2 : Nat} {last2 : Nat} {dFirst : Nat} {n : Nat} (hf : Compares e comp2 comp) : SimE e F (Algo.differenceLoop c c' d comp first1 last1 first2 last2 dFirst n) (Own.differenceLoop o c c' d comp2 first1 last1 first2 last2 dFirst n) := by
  refine Algo.differenceLoop.fixpoint_induct c c' d comp last1 last2 (fun f' => ∀ first1 first2 dFirst n, SimE e F (f' first1 first2 dFirst n) (Own.differenceLoop o c c' d comp2 first1 last1 first2 last2 dFirst n)) Sim.adm4 ?_ first1 first2 dFirst n
  intro f' ih first1 first2 dFirst n
  rw [Own.differenceLoop]
  sim
set_option hygiene false in
macro_rules | `(tactic| sim1) => `(tactic| with_reducible exact S_differenceLoop hf)

theorem S_setDifference {c : Slots} {first1 : Nat} {last1 : Nat} {c' : Slots} {first2 : Nat} {last2 : Nat} {d : Slots} {dFirst : Nat} {comp : W → W → Bool} {comp2 : Loc → Loc → M V Bool} (hf : Compares e comp2 comp) : SimE e F (Algo.setDifference c first1 last1 c' first2 last2 d dFirst comp) (Own.setDifference o c first1 last1 c' first2 last2 d dFirst comp2) := by
  unfold Algo.setDifference Own.setDifference
  sim
set_option hygiene false in
macro_rules | `(tactic| sim1) => `(tactic| with_reducible exact S_setDifference hf)

theorem S_intersectionLoop {c : Slots} {c' : Slots} {d : Slots} {comp : W → W → Bool} {comp2 : Loc → Loc → M V Bool} {first1 : Nat} {last1 : Nat} {first2 : Nat} {last2 : Nat} {dFirst : Nat} {n : Nat} (hf : Compares e comp2 comp) : SimE e F (Algo.intersectionLoop c c' d comp first1 last1 first2 last2 dFirst n) (Own.intersectionLoop o c c' d comp2 first1 last1 first2 last2 dFirst n) := by
  refine Algo.intersectionLoop.fixpoint_induct c c' d comp last1 last2 (fun f' => ∀ first1 first2 dFirst n, SimE e F (f' first1 first2 dFirst n) (Own.intersectionLoop o c c' d comp2 first1 last1 first2 last2 dFirst n)) Sim.adm4 ?_ first1 first2 dFirst n
  intro f' ih first1 first2 dFirst n
  rw [Own.intersectionLoop]
  sim
set_option hygiene false in
macro_rules | `(tactic| sim1) => `(tactic| with_reducible exact S_intersectionLoop hf)

theorem S_setIntersection {c : Slots} {first1 : Nat} {last1 : Nat} {c' : Slots} {first2 : Nat} {last2 : Nat} {d : Slots} {dFirst : Nat} {comp : W → W → Bool} {comp2 : Loc → Loc → M V Bool} (hf : Compares e comp2 comp) : SimE e F (Algo.setIntersection c first1 last1 c' first2 last2 d dFirst comp) (Own.setIntersection o c first1 last1 c' first2 last2 d dFirst comp2) := by
  unfold Algo.setIntersection Own.setIntersection
  sim
set_option hygiene false in
macro_rules | `(tactic| sim1) => `(tactic| with_reducible exact S_setIntersection hf)

theorem S_symDifferenceLoop {c : Slots} {c' : Slots} {d : Slots} {comp : W → W → Bool} {comp2 : Loc → Loc → M V Bool} {first1 : Nat} {last1 : Nat} {first2 : Nat} {last2 : Nat} {dFirst : Nat} {n : Nat} (hf : Compares e comp2 comp) : SimE e F (Algo.symDifferenceLoop c c' d comp first1 last1 first2 last2 dFirst n) (Own.symDifferenceLoop o c c' d comp2 first1 last1 first2 last2 dFirst n) := by
  refine Algo.symDifferenceLoop.fixpoint_induct c c' d comp last1 last2 (fun f' => ∀ first1 first2 dFirst n, SimE e F (f' first1 first2 dFirst n) (Own.symDifferenceLoop o c c' d comp2 first1 last1 first2 last2 dFirst n)) Sim.adm4 ?_ first1 first2 dFirst n
  intro f' ih first1 first2 dFirst n
  rw [Own.symDifferenceLoop]
  sim
set_option hygiene false in
macro_rules | `(tactic| sim1) => `(tactic| with_reducible exact S_symDifferenceLoop hf)

theorem S_setSymDifference {c : Slots} {first1 : Nat} {last1 : Nat} {c' : Slots} {first2 : Nat} {last2 : Nat} {d : Slots} {dFirst : Nat} {comp : W → W → Bool} {comp2 : Loc → Loc → M V Bool} (hf : Compares e comp2 comp) : SimE e F (Algo.setSymDifference c first1 last1 c' first2 last2 d dFirst comp) (Own.setSymDifference o c first1 last1 c' first2 last2 d dFirst comp2) := by
  unfold Algo.setSymDifference Own.setSymDifference
  sim
set_option hygiene false in
macro_rules | `(tactic| sim1) => `(tactic| with_reducible exact S_setSymDifference hf)

theorem S_unionLoop {c : Slots} {c' : Slots} {d : Slots} {comp : W → W → Bool} {comp2 : Loc → Loc → M V Bool} {first1 : Nat} {last1 : Nat} {first2 : Nat} {last2 : Nat} {dFirst : Nat} {n : Nat} (hf : Compares e comp2 comp) : SimE e F (Algo.unionLoop c c' d comp first1 last1 first2 last2 dFirst n) (Own.unionLoop o c c' d comp2 first1 last1 first2 last2 dFirst n) := by
  refine Algo.unionLoop.fixpoint_induct c c' d comp last1 last2 (fun f' => ∀ first1 first2 dFirst n, SimE e F (f' first1 first2 dFirst n) (Own.unionLoop o c c' d comp2 first1 last1 first2 last2 dFirst n)) Sim.adm4 ?_ first1 first2 dFirst n
  intro f' ih first1 first2 dFirst n
  rw [Own.unionLoop]
  sim
set_option hygiene false in
macro_rules | `(tactic| sim1) => `(tactic| with_reducible exact S_unionLoop hf)

theorem S_setUnion {c : Slots} {first1 : Nat} {last1 : Nat} {c' : Slots} {first2 : Nat} {last2 : Nat} {d : Slots} {dFirst : Nat} {comp : W → W → Bool} {comp2 : Loc → Loc → M V Bool} (hf : Compares e comp2 comp) : SimE e F (Algo.setUnion c first1 last1 c' first2 last2 d dFirst comp) (Own.setUnion o c first1 last1 c' first2 last2 d dFirst comp2) := by
  unfold Algo.setUnion Own.setUnion
  sim
set_option hygiene false in
macro_rules | `(tactic| sim1) => `(tactic| with_reducible exact S_setUnion hf)

theorem S_percolate {c : Slots} {first : Nat} {length : Nat} {hole : Nat} {comp : W → W → Bool} {comp2 : Loc → Loc → M V Bool} (hf : Compares e comp2 comp) : SimE e F (Algo.percolate c first length hole comp) (Own.percolate o c first length hole comp2) := by
  refine Algo.percolate.fixpoint_induct c first length comp (fun f' => ∀ hole, SimE e F (f' hole) (Own.percolate o c first length hole comp2)) Sim.adm1 ?_ hole
  intro f' ih hole
  rw [Own.percolate]
  sim
set_option hygiene false in
macro_rules | `(tactic| sim1) => `(tactic| with_reducible exact S_percolate hf)

theorem S_heapifyLoop {c : Slots} {first : Nat} {length : Nat} {comp : W → W → Bool} {comp2 : Loc → Loc → M V Bool} {n : Nat} (hf : Compares e comp2 comp) : SimE e F (Algo.heapifyLoop c first length comp n) (Own.heapifyLoop o c first length comp2 n) := by
  induction n with
  | zero => exact SimE.pure
  | succ n ih =>
    rw [Algo.heapifyLoop, Own.heapifyLoop]
    sim
set_option hygiene false in
macro_rules | `(tactic| sim1) => `(tactic| with_reducible exact S_heapifyLoop hf)

theorem S_heapify {c : Slots} {first : Nat} {last : Nat} {comp : W → W → Bool} {comp2 : Loc → Loc → M V Bool} (hf : Compares e comp2 comp) : SimE e F (Algo.heapify c first last comp) (Own.heapify o c first last comp2) := by
  unfold Algo.heapify Own.heapify
  sim
set_option hygiene false in
macro_rules | `(tactic| sim1) => `(tactic| with_reducible exact S_heapify hf)

theorem S_isHeapLoop {c : Slots} {first : Nat} {dist : Nat} {p : Nat} {comp : W → W → Bool} {comp2 : Loc → Loc → M V Bool} (hf : Compares e comp2 comp) : SimE e F (Algo.isHeapLoop c first dist p comp) (Own.isHeapLoop c first dist p comp2) := by
  refine Algo.isHeapLoop.fixpoint_induct c first dist comp (fun f' => ∀ p, SimE e F (f' p) (Own.isHeapLoop c first dist p comp2)) Sim.adm1 ?_ p
  intro f' ih p
  rw [Own.isHeapLoop]
  sim
set_option hygiene false in
macro_rules | `(tactic| sim1) => `(tactic| with_reducible exact S_isHeapLoop hf)

theorem S_isHeapUntil {c : Slots} {first : Nat} {last : Nat} {comp : W → W → Bool} {comp2 : Loc → Loc → M V Bool} (hf : Compares e comp2 comp) : SimE e F (Algo.isHeapUntil c first last comp) (Own.isHeapUntil c first last comp2) := by
  unfold Algo.isHeapUntil Own.isHeapUntil
  sim
set_option hygiene false in
macro_rules | `(tactic| sim1) => `(tactic| with_reducible exact S_isHeapUntil hf)

theorem S_isHeap {c : Slots} {first : Nat} {last : Nat} {comp : W → W → Bool} {comp2 : Loc → Loc → M V Bool} (hf : Compares e comp2 comp) : SimE e F (Algo.isHeap c first last comp) (Own.isHeap c first last comp2) := by
  unfold Algo.isHeap Own.isHeap
  sim
set_option hygiene false in
macro_rules | `(tactic| sim1) => `(tactic| with_reducible exact S_isHeap hf)

theorem S_popLoop {c : Slots} {first : Nat} {len : Nat} {hole : Nat} {comp : W → W → Bool} {comp2 : Loc → Loc → M V Bool} (hf : Compares e comp2 comp) : SimE e F (Algo.popLoop c first len hole comp) (Own.popLoop o c first len hole comp2) := by
  refine Algo.popLoop.fixpoint_induct c first len comp (fun f' => ∀ hole, SimE e F (f' hole) (Own.popLoop o c first len hole comp2)) Sim.adm1 ?_ hole
  intro f' ih hole
  rw [Own.popLoop]
  sim
set_option hygiene false in
macro_rules | `(tactic| sim1) => `(tactic| with_reducible exact S_popLoop hf)

theorem S_popHeap {c : Slots} {first : Nat} {last : Nat} {comp : W → W → Bool} {comp2 : Loc → Loc → M V Bool} (hf : Compares e comp2 comp) : SimE e F (Algo.popHeap c first last comp) (Own.popHeap o c first last comp2) := by
  unfold Algo.popHeap Own.popHeap
  sim
set_option hygiene false in
macro_rules | `(tactic| sim1) => `(tactic| with_reducible exact S_popHeap hf)

theorem S_makeHeap {c : Slots} {first : Nat} {last : Nat} {comp : W → W → Bool} {comp2 : Loc → Loc → M V Bool} (hf : Compares e comp2 comp) : SimE e F (Algo.makeHeap c first last comp) (Own.makeHeap o c first last comp2) := by
  unfold Algo.makeHeap Own.makeHeap
  sim
set_option hygiene false in
macro_rules | `(tactic| sim1) => `(tactic| with_reducible exact S_makeHeap hf)

theorem S_sortHeapLoop {c : Slots} {first : Nat} {last : Nat} {comp : W → W → Bool} {comp2 : Loc → Loc → M V Bool} (hf : Compares e comp2 comp) : SimE e F (Algo.sortHeapLoop c first last comp) (Own.sortHeapLoop o c first last comp2) := by
  refine Algo.sortHeapLoop.fixpoint_induct c first comp (fun f' => ∀ last, SimE e F (f' last) (Own.sortHeapLoop o c first last comp2)) Sim.adm1 ?_ last
  intro f' ih last
  rw [Own.sortHeapLoop]
  sim
set_option hygiene false in
macro_rules | `(tactic| sim1) => `(tactic| with_reducible exact S_sortHeapLoop hf)

theorem S_sortHeap {c : Slots} {first : Nat} {last : Nat} {comp : W → W → Bool} {comp2 : Loc → Loc → M V Bool} (hf : Compares e comp2 comp) : SimE e F (Algo.sortHeap c first last comp) (Own.sortHeap o c first last comp2) := by
  unfold Algo.sortHeap Own.sortHeap
  sim
set_option hygiene false in
macro_rules | `(tactic| sim1) => `(tactic| with_reducible exact S_sortHeap hf)

theorem S_pscCopyLoop {c : Slots} {d : Slots} {last : Nat} {dLast : Nat} {n : Nat} {it : Nat} {dt : Nat} : SimE e F (Algo.pscCopyLoop c d last dLast n it dt) (Own.pscCopyLoop o c d last dLast n it dt) := by
  refine Algo.pscCopyLoop.fixpoint_induct c d last dLast (fun f' => ∀ n it dt, SimE e F (f' n it dt) (Own.pscCopyLoop o c d last dLast n it dt)) Sim.adm3 ?_ n it dt
  intro f' ih n it dt
  rw [Own.pscCopyLoop]
  sim
set_option hygiene false in
macro_rules | `(tactic| sim1) => `(tactic| with_reducible exact S_pscCopyLoop)

theorem S_sortedLoop {c : Slots} {comp : W → W → Bool} {comp2 : Loc → Loc → M V Bool} {first : Nat} {next : Nat} {last : Nat} (hf : Compares e comp2 comp) : SimE e F (Algo.sortedLoop c comp first next last) (Own.sortedLoop c comp2 first next last) := by
  refine Algo.sortedLoop.fixpoint_induct c comp last (fun f' => ∀ first next, SimE e F (f' first next) (Own.sortedLoop c comp2 first next last)) Sim.adm2 ?_ first next
  intro f' ih first next
  rw [Own.sortedLoop]
  sim
set_option hygiene false in
macro_rules | `(tactic| sim1) => `(tactic| with_reducible exact S_sortedLoop hf)

theorem S_isSortedUntil {c : Slots} {first : Nat} {last : Nat} {comp : W → W → Bool} {comp2 : Loc → Loc → M V Bool} (hf : Compares e comp2 comp) : SimE e F (Algo.isSortedUntil c first last comp) (Own.isSortedUntil c first last comp2) := by
  unfold Algo.isSortedUntil Own.isSortedUntil
  sim
set_option hygiene false in
macro_rules | `(tactic| sim1) => `(tactic| with_reducible exact S_isSortedUntil hf)

theorem S_isSorted {c : Slots} {first : Nat} {last : Nat} {comp : W → W → Bool} {comp2 : Loc → Loc → M V Bool} (hf : Compares e comp2 comp) : SimE e F (Algo.isSorted c first last comp) (Own.isSorted c first last comp2) := by
  unfold Algo.isSorted Own.isSorted
  sim
set_option hygiene false in
macro_rules | `(tactic| sim1) => `(tactic| with_reducible exact S_isSorted hf)

end CC.Own
