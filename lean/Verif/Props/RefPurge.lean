import Verif.Proof.RefPurge
/-!
# C71: `Purge` empties everything that can be reached
-/
namespace Verif.RefPurge
open Verif.Spec.RefPurge

/-- **C71.** `Purge` of a container ends, whatever objects are shared and whatever containers contain each other; it
empties every container that can be reached and changes no other; every reference that it takes out is in the list
exactly once (and so is dropped with the list), and none is lost or added. -/
theorem c71_purge (heap : List (List Nat)) (list : List Nat) (x fuel : Nat) (hf : (references heap).length < fuel) :
    ∃ heap' moved, purge fuel x ⟨heap, list⟩ = some ⟨heap', list ++ moved⟩ ∧
      (∀ y, Reach heap x y → (heap'[y]?).getD [] = []) ∧
      (∀ y, ¬ Reach heap x y → (heap'[y]?).getD [] = (heap[y]?).getD []) ∧
      (∀ o, moved.count o + (references heap').count o = (references heap).count o) := by
  obtain ⟨t, h1, h2, h3, h4⟩ := purge_spec fuel x ⟨heap, list⟩ hf
  obtain ⟨l, hl⟩ := h2.list
  refine ⟨t.heap, l, ?_, ?_, ?_, ?_⟩
  · rw [h1]
    obtain ⟨th, tl⟩ := t
    simp only at hl
    rw [hl]
  · intro y hr
    change kids t y = []
    induction hr with
    | self => exact h3
    | @step y z _ hz ih =>
      have hz' : z ∈ kids ⟨heap, list⟩ y := hz
      exact h2.closed y z (List.ne_nil_of_mem hz') ih hz'
  · intro y hr
    change kids t y = kids ⟨heap, list⟩ y
    exact Decidable.byContradiction fun h => hr (h4 y h)
  · intro o
    have := h2.count o
    rw [hl, List.count_append] at this
    unfold references
    simp only at this ⊢
    omega

/-- The hypotheses are met: two containers that contain each other and themselves, an object in both, and a third one
that is not reached. -/
example : (purge 20 0 ⟨[[1, 0, 7], [0, 7], [1]], [5]⟩).map (fun s => (s.heap, s.list)) =
    some ([[], [], [1]], [5, 1, 0, 7, 0, 7]) := by decide

end Verif.RefPurge
