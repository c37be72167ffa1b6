import Verif.Props.CNull
import Verif.IAlgo.Forms
import Verif.IAlgo.Partition
/-!
# C78: NULL arguments of the algorithms

Every algorithm that is passed NULL for an iterator or a value returns at once, with the neutral result (0, false), whatever its other arguments are, and without any access to the memory: `Harmless`
(Props/CNull.lean).  The comparison-free macros do not: they read the comparison through their first iterator before the check.  Generated by tools/gen_algonull.py.
-/
namespace CC.Props
open CC CC.Iter CC.IAlgo
variable {V : Type}

local macro "nul " h:term : tactic => `(tactic| (
  rw [if_pos (by
    first
    | exact $h
    | (have h' := $h; refine Classical.byContradiction fun hn => ?_; simp only [not_or] at hn; simp only [hn, or_self] at h'))]
  intro s
  rfl))

