import Verif.Spec.ErrorSet
/-!
# C139: an error is the set of its kinds
-/
set_option linter.unusedSimpArgs false
namespace Verif.ErrorSet
open Spec

private theorem mask_bit {bit : Nat} (hb : bit < 32) (k : Nat) : (mask bit).getLsbD k = decide (k = bit) := by
  unfold mask
  rw [BitVec.getLsbD_shiftLeft]
  by_cases h1 : k < 32
  · by_cases h2 : k < bit
    · have : ¬ k = bit := by omega
      simp [h1, h2, this]
    · by_cases h3 : k = bit
      · subst h3; simp [h1]
      · have h4 : k - bit ≠ 0 := by omega
        have h5 : (BitVec.ofNat 32 1).getLsbD (k - bit) = false := by
          simp [BitVec.getLsbD_one, h4]
        simp [h1, h2, h3, h5]
  · have : ¬ k = bit := by omega
    simp [h1, this]

/-- **C139.** After every history, a value holds exactly the kinds of errors that were put into it and not taken out since. -/
theorem c139_set (v : Value) : ∀ (ops : List Op), Flags ops → ∀ k, kinds (run v ops) k ↔ after (kinds v) ops.reverse k := by
  have gen : ∀ r : List Op, Flags r.reverse → ∀ k, kinds (run v r.reverse) k ↔ after (kinds v) r k := by
    intro r
    induction r with
    | nil => intro _ k; exact Iff.rfl
    | cons op r ih =>
      intro hf k
      have hf' : Flags r.reverse := fun bit f h => hf bit f (by simp at h ⊢; exact Or.inl h)
      have e : run v (op :: r).reverse = step (run v r.reverse) op := by simp [run, List.foldl_append]
      rw [e]
      have ih := ih hf' k
      unfold kinds at ih ⊢
      cases op with
      | setFlag bit f =>
        have hb : bit < 32 := hf bit f (by simp)
        cases f
        · by_cases h : k = bit
          · simp [step, setFlag, after, mask_bit hb, h]
          · simp only [step, setFlag, after, Bool.false_eq_true, if_false, BitVec.getLsbD_and, BitVec.getLsbD_not, mask_bit hb, h, decide_false, Bool.not_false,
              Bool.and_true, and_false, false_or, ne_eq, not_false_eq_true, true_and, Bool.and_eq_true, decide_eq_true_eq]
            constructor
            · intro hx; exact ih.1 hx.1
            · intro hx
              have := ih.2 hx
              exact ⟨this, BitVec.lt_of_getLsbD this⟩
        · by_cases h : k = bit
          · simp [step, setFlag, after, mask_bit hb, h]
          · simp [step, setFlag, after, mask_bit hb, h, ih]
      | assign b => exact Iff.rfl
      | assignBool er =>
        cases er
        · simp [step, assignBool, after]
        · simp [step, assignBool, after, BitVec.getLsbD_one]
      | setError b =>
        simp only [step, setError, after, BitVec.getLsbD_or, Bool.or_eq_true, kinds]
        rw [ih]
        exact Or.comm
      | clearError b =>
        simp only [step, clearError, after, BitVec.getLsbD_and, BitVec.getLsbD_not, Bool.and_eq_true, kinds, Bool.not_eq_true', decide_eq_true_eq, Bool.not_eq_true]
        constructor
        · intro hx; exact ⟨ih.1 hx.1, hx.2.2⟩
        · intro hx
          have := ih.2 hx.1
          exact ⟨this, BitVec.lt_of_getLsbD this, hx.2⟩
  intro ops hf k
  have := gen ops.reverse
  rw [List.reverse_reverse] at this
  exact this hf k

private theorem zero_iff (v : Value) : v = 0 ↔ ∀ k, ¬ kinds v k := by
  constructor
  · rintro rfl k h; simp [kinds] at h
  · intro h
    apply BitVec.eq_of_getLsbD_eq
    intro k _
    have := h k
    unfold kinds at this
    simpa using this

/-- **C139.** What is told of a value: that it has no error, exactly when there is none in the set; that it contains some kinds, exactly when all of them are in the
set; that a flag is set, exactly when its kind is in the set; that it is equal to another one, exactly when the sets are the same. -/
theorem c139_told (v : Value) :
    (errorsCleared v = true ↔ ∀ k, ¬ kinds v k) ∧ (toBool v = true ↔ ∀ k, ¬ kinds v k) ∧
      (∀ b, contains b v = true ↔ ∀ k, kinds b k → kinds v k) ∧
      (∀ bit, bit < 32 → (flag bit v = true ↔ kinds v bit)) ∧
      (∀ b, equal b v = true ↔ ∀ k, kinds b k ↔ kinds v k) := by
  refine ⟨?_, ?_, ?_, ?_, ?_⟩
  · simp only [errorsCleared, decide_eq_true_eq]; exact zero_iff v
  · simp only [toBool, decide_eq_true_eq]; exact zero_iff v
  · intro b
    simp only [contains, decide_eq_true_eq, kinds]
    constructor
    · intro h k hk
      rw [← h, BitVec.getLsbD_and, Bool.and_eq_true] at hk
      exact hk.1
    · intro h
      apply BitVec.eq_of_getLsbD_eq
      intro k _
      rw [BitVec.getLsbD_and]
      cases hb : b.getLsbD k
      · simp
      · simp [h k hb]
  · intro bit hb
    simp only [flag, kinds, ne_eq, decide_not, Bool.not_eq_true', decide_eq_false_iff_not]
    rw [zero_iff]
    constructor
    · intro h
      refine Classical.byContradiction fun hc => h ?_
      intro k hk
      unfold kinds at hk
      rw [BitVec.getLsbD_and, mask_bit hb] at hk
      simp at hk
      exact hc (hk.2 ▸ hk.1)
    · intro h hx
      refine hx bit ?_
      unfold kinds
      rw [BitVec.getLsbD_and, mask_bit hb]
      simp [h]
  · intro b
    simp only [equal, decide_eq_true_eq, kinds]
    constructor
    · rintro rfl k; exact Iff.rfl
    · intro h
      apply BitVec.eq_of_getLsbD_eq
      intro k _
      have := h k
      cases h1 : v.getLsbD k <;> cases h2 : b.getLsbD k <;> simp_all

/-- **C139.** A value that is made of bits holds their kinds, and one that is made of a boolean has no error exactly when that is true: then it tells the boolean. -/
theorem c139_made (b : Value) (x : Bool) : (∀ k, kinds (ofBits b) k ↔ kinds b k) ∧ toBool (ofBool x) = x ∧ (∀ k, kinds (ofBool x) k ↔ k = 0 ∧ x = false) := by
  refine ⟨fun k => Iff.rfl, by cases x <;> rfl, ?_⟩
  intro k
  cases x
  · simp [ofBool, setFlag, kinds, mask_bit]
  · simp [ofBool, setFlag, kinds]

/-- **C139 fails for a boolean that is assigned**: a value tells the opposite of the boolean that is assigned to it, and of what it is when it is made of it. -/
theorem c139_assigned_fails (x : Bool) (v : Value) : toBool (assignBool x v) = !x ∧ assignBool x v = ofBool (!x) := by
  cases x <;> constructor <;> rfl

/-- A history of a timeout (bit 9) and a fatal error (bit 0), of which the second is taken back. -/
example : Flags [.setFlag 9 true, .setFlag 0 true, .clearError 1] ∧ run 0 [.setFlag 9 true, .setFlag 0 true, .clearError 1] = 512 := by
  refine ⟨?_, by decide⟩
  intro bit f h
  simp at h
  omega

end Verif.ErrorSet
