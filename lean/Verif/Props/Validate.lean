import Verif.Proof.Validate
/-!
# C78: validation of a value by its attributes

Property: `ValidateBasicType` answers true exactly when every element of the value keeps the rules that the attributes give: not more than `max`,
not less than `min`, with a text not shorter than `min_size` nor longer than `max_size`, and among `values`.

It holds for single values, vectors and square matrices of the integers other than `uint32`, of texts (of less than 64 characters in the
attributes) and of characters.  For the others: the `_fails` theorems.
-/
namespace Verif.Props.Validate
open Verif.Validate Verif.Spec.Validate Verif.IntText Verif.Spec.IntText

/-- **C78**: integers.  For attributes in decimal, in the range of the type: accepted exactly when every element keeps the rules, whatever the decimal text of
the element is.  A single `uint32` too. -/
theorem c78_integer_partial (t : IType) (ht : IsCxxType t) (r : Rules Int) (a : Attrs) (value : Value Int) (hsq : Square value)
    (hu : ¬ (t.w = 32 ∧ t.signed = false) ∨ ∃ v, value = .scalar v)
    (hv : ∀ v, v ∈ elements value → InRange t v) (hw : WrittenRules (fun n s => InRange t n ∧ Decimal n s) r a) :
    validateInt t (some a) value ≠ none ∧
    (validateInt t (some a) value = some true ↔ ∀ v, v ∈ elements value → ∃ s, Decimal v s ∧ Keeps (· ≤ ·) s.length r v) := by
  have hk : ∀ v, InRange t v → (validateOne (intKind t) a v = true ↔ ∃ s, Decimal v s ∧ Keeps (· ≤ ·) s.length r v) := fun v hv => by
    rw [validateOne_iff (intKind t) _ (· ≤ ·) r a v (fun n s h => read_decimal t ht n h.1 s h.2) (by simp [intKind]) (by simp [intKind]) hw]
    constructor
    · exact fun h => ⟨_, print_decimal t ht v hv, h⟩
    · rintro ⟨s, hs, h⟩
      rw [decimal_length hs (print_decimal t ht v hv)] at h
      exact h
  have hall : validateInt t (some a) value = some ((elements value).all (validateOne (intKind t) a)) := by
    rcases hu with hu | ⟨v, rfl⟩
    · have : (decide (t.w = 32) && !t.signed) = false := by
        cases hs : t.signed
        · simp; exact fun e => hu ⟨e, hs⟩
        · simp
      rw [validateInt]
      simp only [this]
      exact validateLoops_square _ value hsq
    · rw [validateInt]
      simp [validateLoops, every, Value.loops, Value.at, checked, elements, List.range_succ, Value.first]
      cases validateOne (intKind t) a v <;> rfl
  rw [hall]
  refine ⟨by simp, ?_⟩
  simp only [Option.some.injEq, List.all_eq_true]
  exact ⟨fun h v hm => (hk v (hv v hm)).1 (h v hm), fun h v hm => (hk v (hv v hm)).2 (h v hm)⟩

/-- **C78**: texts, for attributes of less than 64 characters; the order is the one of the dictionary, by the codes of the characters. -/
theorem c78_text_partial (r : Rules Text) (a : Attrs) (value : Value Text) (hsq : Square value)
    (hw : WrittenRules (fun x s => s = x ∧ s.length < 64) r a) :
    validateText (some a) value ≠ none ∧
    (validateText (some a) value = some true ↔ ∀ v, v ∈ elements value → Keeps (· ≤ ·) v.length r v) := by
  have hk : ∀ v, validateOne textKind a v = true ↔ Keeps (· ≤ ·) v.length r v := fun v =>
    validateOne_iff textKind _ (· ≤ ·) r a v (fun n s h => by
      obtain ⟨rfl, h⟩ := h
      simp only [textKind]
      rw [List.take_of_length_le (by omega)]) (fun x y => by simp only [textKind, textLt_iff, List.not_le]) (by simp [textKind]) hw
  rw [validateText]
  rw [validateLoops_square _ value hsq]
  refine ⟨by simp, ?_⟩
  simp only [Option.some.injEq, List.all_eq_true, hk]

/-- **C78**: characters (compared as signed bytes), of which one has the size 1; the `values` are the characters of a text of less than 64. -/
theorem c78_character_partial (max min : Option UInt8) (minSize maxSize : Option Nat) (values : Option Text) (a : Attrs) (value : Value UInt8)
    (hsq : Square value) (h1 : Written (fun c s => s = [c]) max a.max) (h2 : Written (fun c s => s = [c]) min a.min)
    (h3 : Written WritesSize minSize a.minSize) (h4 : Written WritesSize maxSize a.maxSize)
    (h5 : Written (fun x s => s = x ∧ s.length < 64) values a.values) :
    validateChars (some a) value ≠ none ∧
    (validateChars (some a) value = some true ↔ ∀ v, v ∈ elements value →
      Keeps (fun x y : UInt8 => (x.toNat : Int).bmod 256 ≤ (y.toNat : Int).bmod 256) 1 ⟨max, min, minSize, maxSize, values⟩ v) := by
  have hs : ∀ c : UInt8, signed c = (c.toNat : Int).bmod 256 := fun c => by
    have := c.toNat_lt
    unfold signed
    rw [Int.bmod_def]
    split <;> split <;> omega
  have hk : ∀ v, validateChar a v = true ↔
      Keeps (fun x y : UInt8 => (x.toNat : Int).bmod 256 ≤ (y.toNat : Int).bmod 256) 1 ⟨max, min, minSize, maxSize, values⟩ v := fun v => by
    unfold validateChar Keeps
    rw [readOne_written (fun c s h => by rw [h]; rfl) h1, readOne_written (fun c s h => by rw [h]; rfl) h2, readSize_written h3, readSize_written h4,
      readOne_written (fun x s h => by obtain ⟨rfl, h⟩ := h; rw [List.take_of_length_le (by omega)]) h5]
    simp only [Bool.and_eq_true, and_assoc]
    refine and_congr ?_ (and_congr ?_ (and_congr ?_ (and_congr ?_ ?_)))
    · cases max <;> simp [hs]
    · cases min <;> simp [hs]
    · cases minSize with
      | none => simp
      | some n => simp; omega
    · cases maxSize with
      | none => simp
      | some n => simp; omega
    · cases values <;> simp [List.any_eq_true]
  rw [validateChars]
  rw [validateLoops_square _ value hsq]
  refine ⟨by simp, ?_⟩
  simp only [Option.some.injEq, List.all_eq_true, hk]

/-- No attributes. -/
private def none5 : Attrs := ⟨none, none, none, none, none⟩

/-- **C78 fails**: of a vector of `uint32` only the first element is looked at. -/
theorem c78_uint32_fails (a : Attrs) (v : Int) (l : List Int) :
    validateInt ⟨32, false⟩ (some a) (.vector (v :: l)) = validateInt ⟨32, false⟩ (some a) (.scalar v) := by
  rw [validateInt, validateInt]
  show validateLoops true _ _ = validateLoops true _ _
  rw [loops_first]
  simp only [validateLoops, Value.loops, List.range_succ, List.range_zero, List.nil_append, every, Value.at, Value.first, checked, if_true]
  cases validateOne (intKind ⟨32, false⟩) a v <;> rfl

/-- **C78 fails**: so it is for a square matrix of `uint32` in one block. -/
theorem c78_uint32_matrix_fails (a : Attrs) (v : Int) (l : List Int) (n : Nat) (hl : (v :: l).length = (n + 1) * (n + 1)) :
    validateInt ⟨32, false⟩ (some a) (.block (n + 1) (n + 1) (v :: l)) = validateInt ⟨32, false⟩ (some a) (.scalar v) := by
  rw [validateInt, validateInt]
  show validateLoops true _ _ = validateLoops true _ _
  rw [loops_first_block _ _ _ _ hl]
  simp only [validateLoops, Value.loops, List.range_succ, List.range_zero, List.nil_append, every, Value.at, Value.first, checked, if_true]
  cases validateOne (intKind ⟨32, false⟩) a v <;> rfl

/-- **C78 fails**: with `max = 10`, the vector `5 99` of `uint32` is accepted. -/
theorem c78_uint32_case_fails : validateInt ⟨32, false⟩ (some { none5 with max := some (.one [49, 48]) }) (.vector [5, 99]) = some true := by decide

/-- **C78 fails**: in a matrix with more columns than rows, the columns after the number of rows are not looked at; `max = 10`, the last element of
the first row is 99. -/
theorem c78_wide_fails : validateInt ⟨16, true⟩ (some { none5 with max := some (.one [49, 48]) }) (.block 2 3 [1, 2, 99, 4, 5, 99]) = some true := by
  decide

/-- **C78 fails**: in a matrix with more rows than columns, the last element is not looked at. -/
theorem c78_tall_fails : validateInt ⟨16, true⟩ (some { none5 with max := some (.one [49, 48]) }) (.block 3 2 [1, 2, 3, 4, 5, 99]) = some true := by
  decide

/-- **C78 fails**: and when the rows are allocated one by one, the memory after a row is read. -/
theorem c78_outside_fails : validateInt ⟨16, true⟩ (some { none5 with max := some (.one [49, 48]) }) (.heap 3 2 [[1, 2], [3, 4], [5, 6]] 0) = none := by
  decide

/-- **C78 fails**: a limit that is not in the range of the type is ignored: no `int8` is 200 or more, and all are accepted with `min = 200`; with
`max = -200` too. -/
theorem c78_limit_fails (v : Int) : validateInt ⟨8, true⟩ (some { none5 with min := some (.one [50, 48, 48]) }) (.scalar v) = some true ∧
    validateInt ⟨8, true⟩ (some { none5 with max := some (.one [45, 50, 48, 48]) }) (.scalar v) = some true := by
  have h1 : readInt ⟨8, true⟩ [50, 48, 48] = none := by decide
  have h2 : readInt ⟨8, true⟩ [45, 50, 48, 48] = none := by decide
  constructor <;> simp [validateInt, validateLoops, Value.loops, List.range_succ, every, Value.at, checked, validateOne, none5, readOne, readSize, readList,
    intKind, h1, h2]

/-- **C78 fails**: so is one that is not a number, one that is a list, and `values` that are not a list: 5 is accepted with `values = 7`. -/
theorem c78_values_fails (t : IType) (v : Int) :
    validateInt t (some { none5 with values := some (.one [55]) }) (.scalar v) = some true ∧
    validateInt t (some { none5 with max := some (.list [[55]]) }) (.scalar v) = some true ∧
    validateInt t none (.scalar v) = some true := by
  refine ⟨?_, ?_, rfl⟩ <;>
  · rw [validateInt]
    simp only [validateLoops, Value.loops, List.range_succ, List.range_zero, List.nil_append, every, Value.at, Value.first, checked]
    cases decide (t.w = 32) && !t.signed <;> simp [validateOne, none5, readOne, readSize, readList]

/-- **C78 fails**: attributes that the parser refuses are no rules at all. -/
theorem c78_unparsed_fails (t : IType) (i : Value Int) (s : Value Text) (c : Value UInt8) :
    validateInt t none i = some true ∧ validateText none s = some true ∧ validateChars none c = some true := ⟨rfl, rfl, rfl⟩

/-- **C78 fails**: a text of 64 characters or more, that is in the list, is refused. -/
theorem c78_long_fails (s : Text) (h : 64 ≤ s.length) : validateText (some { none5 with values := some (.list [s]) }) (.scalar s) = some false := by
  have : ¬ s = s.take 63 := fun e => by
    have := congrArg List.length e
    rw [List.length_take] at this
    omega
  simp [validateText, validateLoops, Value.loops, List.range_succ, every, Value.at, checked, validateOne, none5, readOne, readSize, readList, textKind, this]

/-- The rules 1 to 20, at most one digit, for the vector `3 12`: 12 has two digits. -/
example : validateInt ⟨8, true⟩ (some ⟨some (.one [50, 48]), some (.one [49]), none, some (.one [49]), none⟩) (.vector [3, 12]) = some false ∧
    validateInt ⟨8, true⟩ (some ⟨some (.one [50, 48]), some (.one [49]), none, some (.one [50]), none⟩) (.vector [3, 12]) = some true := by decide +kernel

example : WrittenRules (fun n s => InRange ⟨8, true⟩ n ∧ Decimal n s) ⟨some 20, none, none, none, none⟩ ⟨some (.one [50, 48]), none, none, none, none⟩ :=
  ⟨Or.inr ⟨20, [50, 48], rfl, rfl, by unfold InRange; decide, [50, 48], by decide, by unfold IsDigit; decide, by decide, by decide, by decide⟩, Or.inl ⟨rfl, rfl⟩,
    Or.inl ⟨rfl, rfl⟩, Or.inl ⟨rfl, rfl⟩, Or.inl ⟨rfl, rfl⟩⟩

end Verif.Props.Validate
