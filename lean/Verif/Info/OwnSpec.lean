import Verif.Info.Own
import Verif.List.Spec2
/-!
# Lists of elements with callbacks and storage of their own: specifications
-/
namespace CC.Info
open CC.Tac
open CC.CList (link path hdr Elem)
variable {V W α β : Type} {nf : Prop} {C : Funs V} {i : Table} {t : Addr} {A : HProp V} {Own : Addr → HProp V}

/-- the callbacks of a descriptor -/
def ops (C : Funs V) (i : Table) : Ops V := ⟨C.create i.create, C.copy i.copy, C.destroy i.destroy⟩

/-- The storage functions of a descriptor fit together.  `Own a` is what the owner of an object's storage at `a` has to give back besides the object's slot; `A` is the allocator's own data.
`allocate` either fails (only if `nf` does not hold) or gives storage; `deallocate` takes it back.  Without these entries the storage comes from `malloc` and goes to `free`. -/
def Storage (nf : Prop) (C : Funs V) (i : Table) (A : HProp V) (Own : Addr → HProp V) : Prop :=
  ((i.allocate = 0 ∧ i.size ≠ 0 ∧ ∀ a, blk a 1 ⊢ₛ Own a) ∨
    (i.allocate ≠ 0 ∧ Triple nf A (C.alloc i.allocate) (fun a => A ∗ if a = 0 then ⌜¬ nf⌝ else Own a ∗ ∃ₛ x, pts (a, 1) x))) ∧
  ((i.deallocate = 0 ∧ ∀ a, Own a ⊢ₛ blk a 1) ∨
    (i.deallocate ≠ 0 ∧ ∀ a x, Triple nf (A ∗ Own a ∗ pts (a, 1) x) (C.dealloc i.deallocate a) (fun _ => A)))

theorem allocate_spec {P : HProp V} {Q : β → HProp V} {k : Addr → M V β} (hs : Storage nf C i A Own) (ht : t ≠ 0)
    (hfail : ¬ nf → Triple nf (A ∗ info t i ∗ P) (k 0) Q)
    (hok : ∀ b x, b ≠ 0 → Triple nf (Own b ∗ pts (b, 1) x ∗ A ∗ info t i ∗ P) (k b) Q) :
    Triple nf (A ∗ info t i ∗ P) (allocate C t >>= k) Q := by
  unfold allocate
  simp only [bind_assoc]
  refine Triple.cassert_spec (by simpa using ht) ?_
  have hr : ReadsN (A ∗ info t i ∗ P) (t, 2) i.allocate := ReadsN.of_ent (by unfold info; cancel)
  refine ldN_reads hr ?_
  rcases hs.1 with ⟨h0, h1, h2⟩ | ⟨h0, h1⟩
  · rw [if_neg (by simpa using h0)]
    simp only [bind_assoc]
    have hr : ReadsN (A ∗ info t i ∗ P) (t, 1) i.size := ReadsN.of_ent (by unfold info; cancel)
    refine ldN_reads hr ?_
    refine Triple.cassert_spec (by simpa using h1) ?_
    refine mallocO1 (fun h => hfail h) fun a ha => ?_
    refine Triple.pre ?_ (hok a (.obj none) ha)
    exact sep_mono (h2 a) (ent_refl _)
  · rw [if_pos h0]
    refine Triple.bind_frame (R := info t i ∗ P) h1 (ent_refl _) fun a => ?_
    by_cases ha : a = 0
    · subst ha
      rw [if_pos rfl]
      refine Triple.pre (P' := ⌜¬ nf⌝ ∗ A ∗ info t i ∗ P) (by cancel) ?_
      refine Triple.pure_left fun h => hfail h
    · rw [if_neg ha]
      refine Triple.pre (P' := (∃ₛ x, pts (a, 1) x) ∗ Own a ∗ A ∗ info t i ∗ P) (by cancel) ?_
      refine Triple.ex_left' fun x => ?_
      exact Triple.pre (by cancel) (hok a x ha)

theorem deallocate_spec {b : Addr} {x : Val V} (hs : Storage nf C i A Own) (ht : t ≠ 0) :
    Triple nf (A ∗ info t i ∗ Own b ∗ pts (b, 1) x) (deallocate C t b) (fun _ => A ∗ info t i) := by
  unfold deallocate
  refine Triple.cassert_spec (by simpa using ht) ?_
  have hr : ReadsN (A ∗ info t i ∗ Own b ∗ pts (b, 1) x) (t, 6) i.deallocate := ReadsN.of_ent (by unfold info; cancel)
  refine ldN_reads hr ?_
  rcases hs.2 with ⟨h0, h1⟩ | ⟨h0, h1⟩
  · rw [if_neg (by simpa using h0)]
    refine Triple.call_frame (free1 (a := b) (u := x)) (R := A ∗ info t i) ?_ fun _ => by cancel
    exact ent_trans (Q := Own b ∗ pts (b, 1) x ∗ A ∗ info t i) (by cancel) (by rw [sep_assoc]; exact sep_mono (h1 b) (ent_refl _))
  · rw [if_pos h0]
    exact Triple.call_frame (h1 b x) (R := info t i) (by cancel) fun _ => by cancel

/-- the required entries the list functions use are present -/
structure Calls (i : Table) : Prop where
  create : i.create ≠ 0
  copy : i.copy ≠ 0
  destroy : i.destroy ≠ 0

section
variable {e : ElemSpec nf (ops C i) W}

theorem callCreate_spec (hc : Calls i) {l : Loc} {x : Val V} : Triple nf (info t i ∗ pts l x) (callCreate C t l) (fun _ => info t i ∗ cell e l e.dflt) := by
  unfold callCreate
  have hr : ReadsN (info t i ∗ pts l x) (t, 3) i.create := ReadsN.of_ent (by unfold info; cancel)
  refine ldN_reads hr ?_
  rw [if_neg hc.create]
  exact Triple.call_frame (e.create_spec l x) (R := info t i) (by cancel) fun _ => by unfold cell; cancel

theorem callCopy_spec (hc : Calls i) {d s : Loc} {y : Val V} {w : W} :
    Triple nf (info t i ∗ cell e s w ∗ pts d y) (callCopy C t d s) (fun _ => info t i ∗ cell e s w ∗ cell e d w) := by
  unfold callCopy
  have hr : ReadsN (info t i ∗ cell e s w ∗ pts d y) (t, 4) i.copy := ReadsN.of_ent (by unfold info; cancel)
  refine ldN_reads hr ?_
  rw [if_neg hc.copy]
  unfold cell
  xintro x
  refine Triple.call_frame (e.copy_spec d s x y w) (R := info t i) (by cancel) fun _ => ?_
  xintro z
  xexists x
  xexists z
  cancel

theorem callDestroy_spec (hc : Calls i) {l : Loc} {w : W} : Triple nf (info t i ∗ cell e l w) (callDestroy C t l) (fun _ => info t i ∗ ∃ₛ y, pts l y) := by
  unfold callDestroy
  have hr : ReadsN (info t i ∗ cell e l w) (t, 5) i.destroy := ReadsN.of_ent (by unfold info; cancel)
  refine ldN_reads hr ?_
  rw [if_neg hc.destroy]
  unfold cell
  xintro x
  exact Triple.call_frame (e.destroy_spec l x w) (R := info t i) (by cancel) fun _ => by cancel
end

end CC.Info
