import Verif.Proof.ObjConvert
/-!
# C126: conversion of a structure to another
-/
namespace Verif.ObjConvert
open Spec

/-- **C126.** Between two structures that do not overlap, of whatever depth: the conversion succeeds exactly when the source can become a value of the
destination; then the destination holds that value; and, whether it succeeds or not, no byte outside of the destination changes. -/
theorem c126_convert_partial (d s : Ty) (mem : Mem) (da sa : Nat) (hl : Laid d da) (hd : ∀ x, ¬ (Holds d da x ∧ Holds s sa x)) :
    ((convert d s mem da sa).1 = true ↔ ∃ w, Becomes d (valueAt mem s sa) w) ∧
    ((convert d s mem da sa).1 = true → Becomes d (valueAt mem s sa) (valueAt (convert d s mem da sa).2 d da)) ∧
    (∀ x, ¬ Holds d da x → (convert d s mem da sa).2 x = mem x) ∧
    valueAt (convert d s mem da sa).2 s sa = valueAt mem s sa := by
  obtain ⟨h1, h2⟩ := main d s mem da sa hl hd
  refine ⟨⟨fun h => ⟨_, h1 h⟩, h2⟩, h1, fun x hx => frame d s mem da sa x hx, ?_⟩
  exact value_congr s sa (fun x hx => frame d s mem da sa x (fun hh => hd x ⟨hh, hx⟩))

/-- **C126 fails when it is refused**: the value that the check of a member refuses is in the destination. -/
theorem c126_refused_fails {dw sw : Nat} (hw : 0 < dw) (ds ss : Bool) (check c : Int → Bool) (mem : Mem) (da sa : Nat)
    (h : (convert (.int dw ds check) (.int sw ss c) mem da sa).1 = false) :
    ∃ w, valueAt (convert (.int dw ds check) (.int sw ss c) mem da sa).2 (.int dw ds check) da = .int w ∧ check w = false ∧
      Nearest dw ds (intAt mem sa sw ss) w := by
  simp only [convert, valueAt] at h ⊢
  rw [number_load] at h ⊢
  have hn := (nearest_iff hw ds (intAt mem sa sw ss) _).2 rfl
  exact ⟨_, by rw [intAt_store hw ds mem da hn.1], h, hn⟩

/-- A structure of a byte and of two bytes, without sign, the second at most 999. -/
def small : Ty := .struct (.cons 0 (.int 1 false fun _ => true) (.cons 2 (.int 2 false fun v => decide (v ≤ 999)) .nil))
/-- A structure of two and of four bytes, with sign. -/
def wide : Ty := .struct (.cons 0 (.int 2 true fun _ => true) (.cons 4 (.int 4 true fun _ => true) .nil))
/-- At 100: -2 and 700; at 200: 300 and 70000. -/
def memory : Mem := fun x =>
  if x = 100 then 254 else if x = 101 then 255 else if x = 104 then 188 else if x = 105 then 2 else
  if x = 200 then 44 else if x = 201 then 1 else if x = 204 then 112 else if x = 205 then 17 else if x = 206 then 1 else 0

/-- **C126 fails when it is refused**: the members before the one that is refused are changed already. -/
theorem c126_atomic_fails :
    (convert small wide memory 0 200).1 = false ∧ (convert small wide memory 0 200).2 0 = 255 ∧ memory 0 = 0 ∧
    (convert small wide memory 0 200).2 2 = 255 ∧ (convert small wide memory 0 200).2 3 = 255 := by
  refine ⟨?_, ?_, ?_, ?_, ?_⟩ <;> decide

/-- The hypotheses of `c126_convert_partial` are met: -2 becomes 0 and 700 stays. -/
example : Laid small 0 ∧ (∀ x, ¬ (Holds small 0 x ∧ Holds wide 100 x)) ∧ (convert small wide memory 0 100).1 = true ∧
    valueAt (convert small wide memory 0 100).2 small 0 = .struct (.cons (.int 0) (.cons (.int 700) .nil)) := by
  refine ⟨?_, ?_, by decide, ?_⟩
  · simp only [small, Laid, LaidAll, Holds, HoldsAll]
    refine ⟨by omega, ⟨by omega, trivial, fun x h => h.2⟩, ?_⟩
    rintro x ⟨h1, h2 | h2⟩
    · omega
    · exact h2
  · rintro x ⟨h1, h2⟩
    simp only [small, wide, Holds, HoldsAll, or_false] at h1 h2
    omega
  · rfl

end Verif.ObjConvert
