import Verif.Spec.AnyIndex
/-!
# C122: the elements of a value of any type
-/
set_option linter.unusedSimpArgs false
namespace Verif.AnyIndex
open Spec

private theorem size_eq {v : Val} {dims size : Nat} (h : IsArray v dims size) : elementSize v = some size := by
  have hs := h.sized
  have hp := h.positive
  unfold elementSize byteSize bits
  cases hk : v.kind with
  | void => rw [hk] at hs; exact hs.elim
  | plain b => rw [hk] at hs; simp only [hs.1, hs.2]; congr 1; omega
  | string => rw [hk] at hs; simp only [hs.1, hs.2]
  | pointer => rw [hk] at hs; simp only [hs.1, hs.2]
  | structured s => rw [hk] at hs; simp only [hs]

private theorem mul_lt {a size n : Nat} (h : n * size < 2 ^ 32) (hi : a < n) : a * size < 2 ^ 32 :=
  Nat.lt_of_le_of_lt (Nat.mul_le_mul_right _ (Nat.le_of_lt hi)) h

/-- **C122.** An element of a vector is given for every position below the number of elements, with its address (of a text: the address the vector
has for it), and for no other. -/
theorem c122_vector (load : Nat → Nat) {v : Val} {size : Nat} (h : IsArray v 1 size) (hf : v.n0 * size < 2 ^ 32) (i : Nat) :
    (i < v.n0 → ∃ w, elem load v i = some w ∧ IsElement w v.kind (vectorElement load v.kind v.ptr size i)) ∧
    (v.n0 ≤ i → elem load v i = some void) := by
  have hs := size_eq h
  have hp := h.positive
  have hd := h.dims_eq
  unfold elem
  rw [if_neg h.there, hs]
  dsimp only
  rw [if_neg (by omega), if_neg (by omega), if_pos hd]
  constructor
  · intro hi
    rw [if_pos hi]
    refine ⟨_, rfl, rfl, rfl, ?_, rfl, rfl, rfl⟩
    unfold vectorElement scalar
    dsimp only
    rw [Nat.mod_eq_of_lt (mul_lt hf hi)]
  · intro hi
    rw [if_neg (by omega)]

/-- The row of a matrix. -/
private theorem row_ok (load : Nat → Nat) {v : Val} {size : Nat} (h : IsArray v 2 size) (hf : v.n1 * (v.n0 * size) < 2 ^ 32) (h32 : v.n1 * size < 2 ^ 32)
    (i : Nat) (hi : i < v.n1) :
    elem load v i = some ⟨v.kind, v.bitAddress, row load v.static v.ptr size v.n0 i, 1, v.n1, 1, 1, true⟩ := by
  have hs := size_eq h
  have hp := h.positive
  have hd := h.dims_eq
  unfold elem
  rw [if_neg h.there, hs]
  dsimp only
  rw [if_neg (by omega), if_pos hd, if_pos hi]
  have e : i * size % 2 ^ 32 * v.n0 % 2 ^ 32 = i * (v.n0 * size) := by
    rw [Nat.mod_eq_of_lt (mul_lt h32 hi), Nat.mul_assoc, Nat.mul_comm size, Nat.mod_eq_of_lt (mul_lt hf hi)]
  rw [e]
  rfl

/-- **C122.** The element in row `i` and column `j` of a matrix is given, with its address, for every row, for the columns below the number of rows; rows
beyond the last are refused. -/
theorem c122_matrix_partial (load : Nat → Nat) {v : Val} {size : Nat} (h : IsArray v 2 size) (hf : v.n1 * (v.n0 * size) < 2 ^ 32)
    (h32 : v.n1 * size < 2 ^ 32) (i j : Nat) :
    (i < v.n1 → j < v.n0 → j < v.n1 → row load v.static v.ptr size v.n0 i ≠ 0 →
      ∃ w, (elem load v i).bind (fun r => elem load r j) = some w ∧
        IsElement w v.kind (vectorElement load v.kind (row load v.static v.ptr size v.n0 i) size j)) ∧
    (v.n1 ≤ i → elem load v i = some void) := by
  constructor
  · intro hi _ hj hr
    rw [row_ok load h hf h32 i hi]
    have ha : IsArray (Val.mk v.kind v.bitAddress (row load v.static v.ptr size v.n0 i) 1 v.n1 1 1 true) 1 size :=
      ⟨rfl, hr, h.positive, h.sized⟩
    exact (c122_vector load ha h32 j).1 hj
  · intro hi
    have hs := size_eq h
    have hp := h.positive
    have hd := h.dims_eq
    unfold elem
    rw [if_neg h.there, hs]
    dsimp only
    rw [if_neg (by omega), if_pos hd, if_neg (by omega)]

/-- **C122 fails for matrices that are not square**, all of them: a row has as many elements as the matrix has rows.  Columns beyond are refused; if
there are fewer columns than rows, an element beyond the end of the matrix is given. -/
theorem c122_matrix_fails (load : Nat → Nat) {v : Val} {size : Nat} (h : IsArray v 2 size) (hf : v.n1 * (v.n0 * size) < 2 ^ 32)
    (h32 : v.n1 * size < 2 ^ 32) :
    (∀ i j, i < v.n1 → v.n1 ≤ j → j < v.n0 → row load v.static v.ptr size v.n0 i ≠ 0 →
      (elem load v i).bind (fun r => elem load r j) = some void) ∧
    (v.n0 < v.n1 → v.static = true → v.kind ≠ .string → v.kind ≠ .pointer →
      ∃ w, (elem load v (v.n1 - 1)).bind (fun r => elem load r v.n0) = some w ∧ w.ptr = v.ptr + v.n1 * (v.n0 * size)) := by
  constructor
  · intro i j hi hj _ hr
    rw [row_ok load h hf h32 i hi]
    have ha : IsArray (Val.mk v.kind v.bitAddress (row load v.static v.ptr size v.n0 i) 1 v.n1 1 1 true) 1 size :=
      ⟨rfl, hr, h.positive, h.sized⟩
    exact (c122_vector load ha h32 j).2 hj
  · intro hn hst hk1 hk2
    rw [row_ok load h hf h32 (v.n1 - 1) (by omega)]
    have hr : row load v.static v.ptr size v.n0 (v.n1 - 1) ≠ 0 := by
      unfold row
      rw [if_pos hst]
      have := h.there
      omega
    have ha : IsArray (Val.mk v.kind v.bitAddress (row load v.static v.ptr size v.n0 (v.n1 - 1)) 1 v.n1 1 1 true) 1 size :=
      ⟨rfl, hr, h.positive, h.sized⟩
    obtain ⟨w, e, _, _, hw, _⟩ := (c122_vector load ha h32 v.n0).1 hn
    refine ⟨w, e, ?_⟩
    rw [hw]
    unfold vectorElement
    rw [if_neg (by simp [hk1, hk2])]
    dsimp only
    unfold row
    rw [if_pos hst]
    have : v.n1 * (v.n0 * size) = (v.n1 - 1) * (v.n0 * size) + v.n0 * size := by
      conv => lhs; rw [show v.n1 = v.n1 - 1 + 1 by omega]
      rw [Nat.succ_mul]
    omega

/-- **C122 fails for objects whose class has no introspection**: `NULL` is dereferenced at every position. -/
theorem c122_introspection_fails (load : Nat → Nat) (v : Val) (hp : v.ptr ≠ 0) (hk : v.kind = .structured (some none)) (i : Nat) :
    elem load v i = none := by
  unfold elem elementSize
  rw [if_neg hp, hk]

/-- **C122.** There is no element of a value that is not there, of one with no dimension or with more than two, of one of no type, and of a structure that is
not in the registry: what is given is the value of nothing. -/
theorem c122_nothing (load : Nat → Nat) (v : Val) (i : Nat)
    (h : v.ptr = 0 ∨ ((v.dims = 0 ∨ 2 < v.dims) ∧ v.kind ≠ .structured (some none)) ∨ (v.kind = .void ∧ v.bitAddress = 0) ∨ v.kind = .structured none) :
    ∃ w, elem load v i = some w ∧ IsNothing w := by
  have hv : IsNothing void := ⟨rfl, rfl, rfl, rfl, rfl, rfl, rfl⟩
  unfold elem
  by_cases h0 : v.ptr = 0
  · rw [if_pos h0]; exact ⟨_, rfl, hv⟩
  · rw [if_neg h0]
    rcases h with h | ⟨h, hk⟩ | ⟨hk, hb⟩ | hk
    · exact absurd h h0
    · have h2 : ¬ v.dims = 2 := by omega
      have h1 : ¬ v.dims = 1 := by omega
      cases hs : elementSize v with
      | none =>
        unfold elementSize at hs
        split at hs
        · exact absurd hs (by simp)
        · rename_i s hx; rw [hs] at hx; exact absurd hx hk
        · exact absurd hs (by simp)
      | some size =>
        dsimp only
        rw [if_neg h2, if_neg h1]
        exact ⟨_, rfl, by split <;> exact hv⟩
    · have : elementSize v = some 0 := by simp [elementSize, byteSize, bits, hk, hb]
      rw [this]; exact ⟨_, rfl, hv⟩
    · have : elementSize v = some 0 := by simp [elementSize, hk]
      rw [this]; exact ⟨_, rfl, hv⟩

/-- **C122.** The size of a value is the product of its numbers of elements and of the bytes of one, if it fits in 32 bits: of the least
number of bytes in which its bits fit after those before it. -/
theorem c122_size_partial (v : Val) (s : Nat) (h3 : v.dims ≤ 3) {b : Nat} (hk : v.kind = .plain b)
    (hb : b + v.bitAddress ≤ 8 * s ∧ 8 * s < b + v.bitAddress + 8)
    (hn : 0 < v.n0 ∧ 0 < v.n1 ∧ 0 < v.n2) (hs : 0 < s) (hf : v.n0 * v.n1 * v.n2 * s < 2 ^ 32) :
    dataSize v = (([v.n0, v.n1, v.n2].take v.dims).foldl (· * ·) 1) * s := by
  obtain ⟨a0, a1, a2⟩ := hn
  have e : byteSize v = s := by simp only [byteSize, bits, hk]; omega
  have b3 : v.n0 * v.n1 * v.n2 < 2 ^ 32 := Nat.lt_of_le_of_lt (Nat.le_mul_of_pos_right _ hs) hf
  have b2 : v.n0 * v.n1 < 2 ^ 32 := Nat.lt_of_le_of_lt (Nat.le_mul_of_pos_right _ a2) b3
  have b1 : v.n0 < 2 ^ 32 := Nat.lt_of_le_of_lt (Nat.le_mul_of_pos_right _ a1) b2
  have c2 : v.n0 * v.n1 * s < 2 ^ 32 := Nat.lt_of_le_of_lt (Nat.mul_le_mul_right _ (Nat.le_mul_of_pos_right _ a2)) hf
  have c1 : v.n0 * s < 2 ^ 32 := Nat.lt_of_le_of_lt (Nat.mul_le_mul_right _ (Nat.le_mul_of_pos_right _ a1)) c2
  have c0 : s < 2 ^ 32 := Nat.lt_of_le_of_lt (Nat.le_mul_of_pos_left _ a0) c1
  unfold dataSize
  rw [e]
  match hd : v.dims, h3 with
  | 0, _ => simp [Nat.mod_eq_of_lt c0]
  | 1, _ => simp [Nat.mod_eq_of_lt c1, Nat.mod_eq_of_lt b1]
  | 2, _ => simp [Nat.mod_eq_of_lt c2, Nat.mod_eq_of_lt b1, Nat.mod_eq_of_lt b2]
  | 3, _ => simp [Nat.mod_eq_of_lt hf, Nat.mod_eq_of_lt b1, Nat.mod_eq_of_lt b2, Nat.mod_eq_of_lt b3]

/-- A matrix of two rows and three columns of 32 bits. -/
example : IsArray ⟨.plain 32, 0, 4096, 2, 3, 2, 1, true⟩ 2 4 ∧
    ((elem id ⟨.plain 32, 0, 4096, 2, 3, 2, 1, true⟩ 1).bind fun r => elem id r 1).map (fun w => w.ptr) = some 4112 ∧
    ((elem id ⟨.plain 32, 0, 4096, 2, 3, 2, 1, true⟩ 1).bind fun r => elem id r 2) = some void :=
  ⟨⟨rfl, by decide, by decide, rfl, rfl⟩, rfl, rfl⟩

end Verif.AnyIndex
