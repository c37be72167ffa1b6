import Verif.List.Rep
/-!
# Local specifications of the internal list functions
-/
namespace CC.CList
open CC.Tac
variable {V β : Type} {E : Types V} {nf : Prop}

theorem popNode_spec {l s p q : Addr} {e : Elem V} (hne : e.node ≠ s) :
    Triple nf (fld l 1 s ∗ link p e.node ∗ link e.node q ∗ elt e) (popNode l e.node)
      (fun r => ⌜r = q⌝ ∗ fld l 1 s ∗ link p q) := by
  unfold popNode link elt
  apply Triple.ne_zero; intro hl
  focus_atom blk e.node 3
  apply Triple.ne_zero; intro hn
  step
  · simpa using hl
  step
  · simpa using hn
  steps
  rw [if_neg hne]
  steps
  call freeV1
  intro _
  call free3
  intro _
  apply Triple.ret
  cancel

theorem popNode_end {l s : Addr} (hs : s ≠ 0) :
    Triple (V := V) nf (fld l 1 s) (popNode l s) (fun r => ⌜r = s⌝ ∗ fld l 1 s) := by
  unfold popNode
  rw [← sep_emp (fld l 1 s)]
  apply Triple.ne_zero; intro hl
  step
  · simpa using hl
  step
  · simpa using hs
  steps
  rw [if_pos rfl]
  apply Triple.ret
  cancel

/-- The value a `c_ref_t` argument designates: the value at the location, or the type's default for NULL. -/
def ArgVal (P : HProp V) (value : Loc) (d v : V) : Prop :=
  (value.1 = 0 ∧ v = d) ∨ (value.1 ≠ 0 ∧ Reads P value v)

theorem createNode_spec {l : Addr} {ty : Nat} {value : Loc} {v : V} {P : HProp V} {Q : β → HProp V}
    {k : Addr → M V β} (hl : l ≠ 0) (hv : ArgVal (fld l 2 ty ∗ P) value (E ty).dflt v)
    (hfail : ¬ nf → Triple nf (fld l 2 ty ∗ P) (k 0) Q)
    (hok : ∀ e : Elem V, e.val = v → e.node ≠ 0 →
      Triple nf (fld e.node 1 0 ∗ fld e.node 2 0 ∗ elt e ∗ fld l 2 ty ∗ P) (k e.node) Q) :
    Triple nf (fld l 2 ty ∗ P) (createNode E l value >>= k) Q := by
  unfold createNode
  steps
  · simpa using hl
  step
  apply mallocS3
  · intro h; simp; exact hfail h
  intro n x y z hn
  rw [if_neg hn]
  steps
  apply mallocO1
  · intro h
    steps
    rw [if_pos rfl]
    steps
    call free3
    intro _
    steps
    flat
    exact hfail h
  intro b hb
  steps
  rw [if_neg hb]
  rcases hv with ⟨h0, rfl⟩ | ⟨h0, hr⟩
  · rw [if_neg (by simp [h0])]
    steps
    refine Triple.pre ?_ (hok ⟨n, b, _⟩ rfl hn)
    unfold elt
    cancel
  · rw [if_pos h0]
    steps
    apply ldV_reads (v := v)
    · exact hr.of_ent (by cancel)
    steps
    refine Triple.pre ?_ (hok ⟨n, b, _⟩ rfl hn)
    unfold elt
    cancel

theorem transfer_spec {pos first last pp fp lp : Addr} (h1 : pos ≠ last) (h2 : first ≠ last) :
    Triple (V := V) nf (link pp pos ∗ link fp first ∗ link lp last) (transfer pos first last)
      (fun _ => link pp first ∗ link lp pos ∗ link fp last) := by
  unfold transfer link
  rw [if_pos ⟨h1, h2⟩]
  steps
  apply Triple.ret
  cancel

end CC.CList
