import Verif.Prime.Model
import Verif.Core.Tac
import Verif.Spec.Order
namespace CC.Prime
open CC CC.Tac
variable {nf : Prop} {t : CType}

/-- an object of the C type `t` with value `x` at location `p` -/
def isNum (t : CType) (p : Loc) (x : Num) : HProp Num := ⌜t.Holds x⌝ ∗ pts p (.obj (some x))

theorem zero_holds : t.Holds t.zero := by cases t <;> (unfold CType.zero CType.Holds CType.isFloat; simp [CType.lo, CType.hi]) <;> omega

theorem pts_nz {p : Loc} {x : Val Num} {R : HProp Num} {m : M Num α} {Q : α → HProp Num} (h : p.1 ≠ 0 → Triple nf (pts p x ∗ R) m Q) : Triple nf (pts p x ∗ R) m Q := by
  intro s F ho hs
  refine h (fun h0 => ?_) s F ho hs
  rw [sep_assoc] at hs
  have := pts_sep_cells hs
  have h2 := s.hnul p.2
  rw [← h0] at h2
  rw [h2] at this
  cases this

theorem cassert_ok {a : Nat} (h : a ≠ 0) : (cassert (a != 0) : M Num Unit) = pure () := by
  unfold cassert; rw [if_pos (by simpa using h)]

theorem create_spec {p : Loc} {x : Val Num} : Triple nf (pts p x) (create t p) (fun _ => isNum t p t.zero) := by
  refine Triple.pre (P' := pts p x ∗ emp) (by cancel) (pts_nz fun h => ?_)
  unfold create write
  rw [cassert_ok h]
  steps
  apply Triple.ret
  unfold isNum
  refine ent_pure_right zero_holds ?_
  cancel

theorem copy_spec {d s : Loc} {x : Num} {y : Val Num} (hx : t.Holds x) :
    Triple nf (pts s (.obj (some x)) ∗ pts d y) (copy t d s) (fun _ => pts s (.obj (some x)) ∗ pts d (.obj (some x))) := by
  rw [sep_comm]
  refine pts_nz fun h => ?_
  unfold copy read write
  rw [cassert_ok h]
  steps
  rw [if_pos hx]
  steps
  apply Triple.ret
  cancel

theorem destroy_spec {p : Loc} {x : Val Num} : Triple nf (pts p x) (destroy p) (fun _ => pts p x) := by
  refine Triple.pre (P' := pts p x ∗ emp) (by cancel) (pts_nz fun h => ?_)
  unfold destroy
  rw [cassert_ok h]
  apply Triple.ret
  cancel

/-- the table is a proper element type -/
def spec (t : CType) : ElemSpec nf (ops t) Num where
  own x w := ⌜x = .obj (some w) ∧ t.Holds w⌝
  dflt := t.zero
  create_spec l x := by
    refine create_spec.post fun _ => ?_
    unfold isNum
    refine ent_pure_left fun h => ?_
    xexists .obj (some t.zero)
    cancel
  copy_spec d s x y w := by
    xintro h
    obtain ⟨rfl, h⟩ := h
    refine (copy_spec h).post fun _ => ?_
    xexists .obj (some w)
    cancel
  destroy_spec l x w := by
    xintro h
    refine destroy_spec.post fun _ => ?_
    xexists x
    cancel

theorem spec_plain : (spec (nf := nf) t).Plain := fun x w => ⟨_, rfl⟩

theorem spec_cell {p : Loc} {x : Num} : cell (spec (nf := nf) t) p x = isNum t p x := by
  apply ent_antisymm
  · unfold cell spec isNum
    dsimp only
    xintro y h
    obtain ⟨rfl, h⟩ := h
    cancel
  · unfold cell spec isNum
    dsimp only
    xintro h
    xexists .obj (some x)
    cancel

end CC.Prime
