import Verif.Model.TypeDesc
import Verif.Spec.TypeDesc
/-!
# C128: descriptors of types and their names
-/
set_option maxRecDepth 8000
namespace Verif.TypeDesc
open Spec

private theorem basic_eq {memory : Nat} (hm : memory < 65536) (c : Bool) {t n : Nat} (ht : t < 16) (hn : n < 1024) :
    basic memory c t n = 2 * c.toNat + 4 * t + 64 * n := by
  unfold basic set
  simp only [Nat.reducePow, Nat.reduceSub, Nat.min_eq_left (show t ≤ 15 by omega), Nat.min_eq_left (show n ≤ 1023 by omega)]
  cases c <;> simp only [Bool.toNat_true, Bool.toNat_false] <;> omega

private theorem structured_eq {memory : Nat} (hm : memory < 65536) (c : Bool) (id : Nat) :
    structured memory c id = 1 + 2 * c.toNat + 4 * min id 16383 := by
  have hi : min id 16383 ≤ 16383 := Nat.min_le_right _ _
  unfold structured set
  generalize min id 16383 = j at hi
  simp only [Nat.reducePow, Nat.reduceSub, Nat.min_eq_left hi]
  cases c <;> simp only [Bool.toNat_true, Bool.toNat_false] <;> omega

/-- **C128.** A descriptor of a basic type has the fields it was made with, whatever was in its memory. -/
theorem c128_fields_partial {memory : Nat} (hm : memory < 65536) (c : Bool) {t n : Nat} (ht : t < 16) (hn : n < 1024) :
    isStructured (basic memory c t n) = false ∧ isConstant (basic memory c t n) = c ∧ type (basic memory c t n) = t ∧
    numberOfBits (basic memory c t n) = n ∧ basic memory c t n < 65536 := by
  rw [basic_eq hm c ht hn]
  unfold isStructured isConstant type numberOfBits get
  cases c <;> simp <;> omega

/-- **C128.** A descriptor of a class has the identifier of the class, when it is less than 16384. -/
theorem c128_class_partial {memory : Nat} (hm : memory < 65536) (c : Bool) {id : Nat} (hi : id < 16384) :
    isStructured (structured memory c id) = true ∧ isConstant (structured memory c id) = c ∧ idCode (structured memory c id) = id ∧
    structured memory c id < 65536 := by
  rw [structured_eq hm c id, Nat.min_eq_left (by omega)]
  unfold isStructured isConstant idCode get
  cases c <;> simp <;> omega

private theorem mask_eq {a : Nat} : set 1 1 1 a = a - a / 2 % 2 * 2 + 2 := by
  unfold set
  simp

/-- **C128.** Two basic types are equal exactly when they have the same kind and number of bits; two classes when they have the same identifier; and a basic
type is never a class.  Constants do not matter. -/
theorem c128_equal_partial {m1 m2 : Nat} (h1 : m1 < 65536) (h2 : m2 < 65536) (c1 c2 : Bool) {t1 t2 n1 n2 i1 i2 : Nat}
    (ht1 : t1 < 16) (ht2 : t2 < 16) (hn1 : n1 < 1024) (hn2 : n2 < 1024) (hi1 : i1 < 16384) (hi2 : i2 < 16384) :
    (equal (basic m1 c1 t1 n1) (basic m2 c2 t2 n2) = true ↔ t1 = t2 ∧ n1 = n2) ∧
    (equal (structured m1 c1 i1) (structured m2 c2 i2) = true ↔ i1 = i2) ∧
    equal (basic m1 c1 t1 n1) (structured m2 c2 i2) = false := by
  unfold equal
  rw [mask_eq, mask_eq, mask_eq, mask_eq, basic_eq h1 c1 ht1 hn1, basic_eq h2 c2 ht2 hn2, structured_eq h1, structured_eq h2,
    Nat.min_eq_left (by omega), Nat.min_eq_left (by omega)]
  refine ⟨?_, ?_, ?_⟩
  · rw [beq_iff_eq]
    cases c1 <;> cases c2 <;> simp <;> omega
  · rw [beq_iff_eq]
    cases c1 <;> cases c2 <;> simp <;> omega
  · rw [beq_eq_false_iff_ne]
    cases c1 <;> cases c2 <;> simp <;> omega

/-- **C128.** A type is numeric exactly when it is an integer or a floating point number of at least one bit. -/
theorem c128_numeric {memory : Nat} (hm : memory < 65536) (c : Bool) {t n : Nat} (ht : t < 16) (hn : n < 1024) (id : Nat) (hi : id < 16384) :
    (isNumeric (basic memory c t n) = true ↔ 0 < n ∧ (t = signedInteger ∨ t = unsignedInteger ∨ t = float)) ∧
    isNumeric (structured memory c id) = false := by
  obtain ⟨h1, _, h3, h4, _⟩ := c128_fields_partial hm c ht hn
  obtain ⟨h5, _⟩ := c128_class_partial hm c hi
  unfold isNumeric
  rw [h1, h3, h4, h5]
  simp [signedInteger, unsignedInteger, float]
  omega

private theorem named_name : ∀ e ∈ named, fromName e.2.2.toList table = basic 0 false e.1 e.2.1 := by decide

private theorem fromName_unknown (name : List Char) : ∀ (l : List (Nat × List Char)), (∀ e ∈ l, e.2 ≠ name) → fromName name l = invalid
  | [], _ => rfl
  | (d, n) :: rest, h => by
    unfold fromName
    rw [if_neg (fun e => h (d, n) (by simp) e.symm)]
    exact fromName_unknown name rest (fun e he => h e (List.mem_cons_of_mem _ he))

/-- **C128.** The name of each type that has one leads to the descriptor of that type, and any other name to the invalid type. -/
theorem c128_from_name :
    (∀ (t n : Nat) (name : String), (t, n, name) ∈ named → fromName name.toList table = basic 0 false t n) ∧
    (∀ name : List Char, (∀ e ∈ named, e.2.2.toList ≠ name) → fromName name table = invalid) := by
  refine ⟨fun t n name h => named_name (t, n, name) h, ?_⟩
  intro name h
  refine fromName_unknown name table ?_
  have hall : ∀ e ∈ table, ∃ e' ∈ named, e'.2.2.toList = e.2 := by decide
  intro e he
  obtain ⟨e', he', h2⟩ := hall e he
  rw [← h2]
  exact h e' he'

private theorem invalid_ne : ∀ e ∈ table, equal e.1 invalid = false := by decide

private theorem toName_first (desc : Nat) : ∀ (l : List (Nat × List Char)), (∀ e ∈ l, equal e.1 invalid = false) →
    toName desc l = (l.find? fun e => equal e.1 desc).map fun e => e.2
  | [], _ => rfl
  | (d, n) :: rest, h => by
    unfold toName
    rw [if_neg (by rw [h (d, n) (by simp)]; simp)]
    by_cases he : equal d desc = true
    · rw [if_pos he, List.find?_cons_of_pos (by simpa using he)]
      rfl
    · rw [if_neg he, List.find?_cons_of_neg (by simpa using he)]
      exact toName_first desc rest (fun e he => h e (List.mem_cons_of_mem _ he))

/-- **C128.** The invalid type is no structure, is not constant, is of the last of the sixteen types and has no bits; it is none of the types that have a name. -/
theorem c128_invalid : isStructured invalid = false ∧ isConstant invalid = false ∧ type invalid = 15 ∧ numberOfBits invalid = 0 ∧ isNumeric invalid = false ∧
    ∀ e ∈ table, equal e.1 invalid = false := by decide

/-- **C128.** A descriptor of a basic type has a name exactly when a type of its kind and size has one, and then that one, also when it is constant; and a
descriptor of a class has none. -/
theorem c128_to_name {memory : Nat} (hm : memory < 65536) (c : Bool) {t n : Nat} (ht : t < 16) (hn : n < 1024) {id : Nat} (hi : id < 16384) :
    (∀ name : List Char, toName (basic memory c t n) table = some name ↔ ∃ s, (t, n, s) ∈ named ∧ s.toList = name) ∧
    toName (structured memory c id) table = none := by
  rw [toName_first _ _ invalid_ne, toName_first _ _ invalid_ne]
  have hform : ∀ e ∈ table, ∃ e' ∈ named, e'.1 < 16 ∧ e'.2.1 < 1024 ∧ e.1 = basic 0 false e'.1 e'.2.1 ∧ e.2 = e'.2.2.toList := by decide
  constructor
  · intro name
    constructor
    · intro h
      cases hf : table.find? fun e => equal e.1 (basic memory c t n) with
      | none => rw [hf] at h; simp at h
      | some e =>
        rw [hf] at h
        simp at h
        have hmem := List.mem_of_find?_eq_some hf
        have heq := List.find?_some hf
        obtain ⟨⟨t', n', s⟩, he', ht', hn', h1, h2⟩ := hform e hmem
        dsimp only at ht' hn' h1 h2
        simp only [h1] at heq
        have h3 := ((c128_equal_partial (m1 := 0) (i1 := 0) (i2 := 0) (by omega) hm false c ht' ht hn' hn (by omega) (by omega)).1).1 heq
        refine ⟨s, ?_, by rw [← h2, h]⟩
        rw [← h3.1, ← h3.2]
        exact he'
    · rintro ⟨s, hs, hname⟩
      have hfound : ∀ e ∈ named, ∃ f, (f, e.2.2.toList) ∈ table ∧ f = basic 0 false e.1 e.2.1 := by
        have h0 : ∀ e ∈ named, (basic 0 false e.1 e.2.1, e.2.2.toList) ∈ table := by decide
        exact fun e he => ⟨_, h0 e he, rfl⟩
      obtain ⟨f, hf1, hf2⟩ := hfound _ hs
      have hfe : equal f (basic memory c t n) = true := by
        rw [hf2]
        exact ((c128_equal_partial (m1 := 0) (i1 := 0) (i2 := 0) (by omega) hm false c ht ht hn hn (by omega) (by omega)).1).2 ⟨rfl, rfl⟩
      cases hf : table.find? fun e => equal e.1 (basic memory c t n) with
      | none =>
        rw [List.find?_eq_none] at hf
        exact absurd hfe (hf _ hf1)
      | some e =>
        have hmem := List.mem_of_find?_eq_some hf
        have heq := List.find?_some hf
        obtain ⟨⟨t', n', s'⟩, he', ht', hn', h1, h2⟩ := hform e hmem
        dsimp only at ht' hn' h1 h2
        simp only [h1] at heq
        have h3 := ((c128_equal_partial (m1 := 0) (i1 := 0) (i2 := 0) (by omega) hm false c ht' ht hn' hn (by omega) (by omega)).1).1 heq
        obtain ⟨rfl, rfl⟩ := h3
        have huniq : ∀ e ∈ named, ∀ e' ∈ named, e.1 = e'.1 → e.2.1 = e'.2.1 → e = e' := by decide
        have hss := huniq _ he' _ hs rfl rfl
        simp at hss
        simp [h2, hss, hname]
  · have : table.find? (fun e => equal e.1 (structured memory c id)) = none := by
      rw [List.find?_eq_none]
      intro e he
      obtain ⟨⟨t', n', s'⟩, he', ht', hn', h1, h2⟩ := hform e he
      dsimp only at ht' hn' h1 h2
      rw [h1, (c128_equal_partial (m1 := 0) (i1 := 0) (by omega) hm false c ht' ht' hn' hn' (by omega) hi).2.2]
      simp
    rw [this]
    rfl

/-- **C128 fails for many classes and for long types**: all the classes from the identifier 16383 on have equal descriptors, and all the sizes from 1023 bits on. -/
theorem c128_range_fails {m1 m2 : Nat} (h1 : m1 < 65536) (h2 : m2 < 65536) (c : Bool) {i1 i2 : Nat} (hi1 : 16383 ≤ i1) (hi2 : 16383 ≤ i2)
    {t n1 n2 : Nat} (hn1 : 1023 ≤ n1) (hn2 : 1023 ≤ n2) :
    equal (structured m1 c i1) (structured m2 c i2) = true ∧ basic m1 c t n1 = basic m1 c t n2 := by
  constructor
  · rw [structured_eq h1, structured_eq h2, Nat.min_eq_right hi1, Nat.min_eq_right hi2]
    simp [equal]
  · unfold basic
    unfold set
    simp only [Nat.reducePow, Nat.reduceSub, Nat.min_eq_right hn1, Nat.min_eq_right hn2]

/-- A constant integer of 32 bits. -/
example : toName (basic 54321 true 0 32) table = some "int32".toList ∧ fromName "int32".toList table = basic 0 false 0 32 ∧
    numberOfBits (basic 54321 true 0 32) = 32 := by decide

end Verif.TypeDesc
