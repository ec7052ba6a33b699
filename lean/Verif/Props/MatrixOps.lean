import Verif.Proof.MatrixOps
/-!
# C72: matrices
-/
set_option linter.unusedVariables false
namespace Verif.MatrixOps
open Verif.Spec.MatrixOps
open Finset

private theorem cells_inj (r : Mat) (hs : Fits r) (hd : Distinct r) (i j i' j' : Nat) (hi : i < r.numRows) (hj : j < r.numCols)
    (hi' : i' < r.numRows) (hj' : j' < r.numCols) (h : cell r i j = cell r i' j') : i = i' ∧ j = j' := by
  rw [cell_eq r hs i j hi hj, cell_eq r hs i' j' hi' hj'] at h
  exact hd i j i' j' hi hj hi' hj' h

/-- **C72.** `Product` answers `true` exactly when the dimensions fit, and then the result is the product, and no other
cell has changed. -/
theorem c72_product {K} [NonUnitalNonAssocSemiring K] (m : Mem K) (a b r : Mat) (ha : Fits a) (hb : Fits b) (hr : Fits r)
    (hd : Distinct r) (hra : Apart r a) (hrb : Apart r b) :
    ((product m a b r).1 = true ↔ a.numCols = b.numRows ∧ r.numRows = a.numRows ∧ r.numCols = b.numCols) ∧
    ((product m a b r).1 = true → ∀ i j, i < a.numRows → j < b.numCols →
      (product m a b r).2 (place r i j) = ∑ k ∈ range a.numCols, m (place a i k) * m (place b k j)) ∧
    Frame r m (product m a b r).2 := by
  unfold product
  by_cases h : b.numRows = a.numCols ∧ r.numRows = a.numRows ∧ r.numCols = b.numCols
  · rw [if_pos h]
    obtain ⟨h1, h2, h3⟩ := h
    rw [← h2, ← h3]
    obtain ⟨g1, g2⟩ := grid (fun s => s) r.numRows r.numCols (cell r)
      (fun i j s => loop a.numCols (fun k s => write s (cell r i j) (s (cell r i j) + s (cell a i k) * s (cell b k j)))
        (write s (cell r i j) 0)) (fun i j => ∑ k ∈ range a.numCols, m (place a i k) * m (place b k j)) m
      (cells_inj r hr hd) (by
        intro i j s hi hj hs
        have hx : ∀ k, k < a.numCols → ∀ i' j', i' < r.numRows → j' < r.numCols → cell a i k ≠ cell r i' j' := by
          intro k hk i' j' hi' hj'
          rw [cell_eq r hr i' j' hi' hj', cell_eq a ha i k (by omega) hk]
          exact fun e => hra i' j' i k hi' hj' (by omega) hk e.symm
        have hy : ∀ k, k < a.numCols → ∀ i' j', i' < r.numRows → j' < r.numCols → cell b k j ≠ cell r i' j' := by
          intro k hk i' j' hi' hj'
          rw [cell_eq r hr i' j' hi' hj', cell_eq b hb k j (by omega) (by omega)]
          exact fun e => hrb i' j' k j hi' hj' (by omega) (by omega) e.symm
        rw [product_element s (cell r i j) (fun k => cell a i k) (fun k => cell b k j) a.numCols
          (fun k hk => hx k hk i j hi hj) (fun k hk => hy k hk i j hi hj)]
        congr 1
        apply Finset.sum_congr rfl
        intro k hk
        have hk' := Finset.mem_range.1 hk
        rw [hs _ (hx k hk'), hs _ (hy k hk'), cell_eq a ha i k (by omega) hk', cell_eq b hb k j (by omega) (by omega)])
    refine ⟨by simp [h1, h2, h3], fun _ i j hi hj => ?_, fun c hc => ?_⟩
    · rw [← cell_eq r hr i j hi hj]; exact g1 i j hi hj
    · exact g2 c (fun i j hi hj => by rw [cell_eq r hr i j hi hj]; exact hc i j hi hj)
  · rw [if_neg h]
    refine ⟨?_, by simp, fun c _ => rfl⟩
    constructor
    · simp
    · intro h'; exact absurd ⟨h'.1.symm, h'.2⟩ h

/-- **C72.** `Sum`. -/
theorem c72_sum {K} [Add K] (m : Mem K) (a b r : Mat) (ha : Fits a) (hb : Fits b) (hr : Fits r)
    (hd : Distinct r) (hra : Apart r a) (hrb : Apart r b) :
    ((sum m a b r).1 = true ↔ b.numRows = a.numRows ∧ r.numRows = a.numRows ∧ b.numCols = a.numCols ∧ r.numCols = a.numCols) ∧
    ((sum m a b r).1 = true → ∀ i j, i < a.numRows → j < a.numCols →
      (sum m a b r).2 (place r i j) = m (place a i j) + m (place b i j)) ∧
    Frame r m (sum m a b r).2 := by
  unfold sum
  by_cases h : (b.numRows = a.numRows ∧ r.numRows = a.numRows) ∧ (b.numCols = a.numCols ∧ r.numCols = a.numCols)
  · rw [if_pos h]
    obtain ⟨⟨h1, h2⟩, h3, h4⟩ := h
    rw [← h2, ← h4]
    obtain ⟨g1, g2⟩ := grid (fun s => s) r.numRows r.numCols (cell r)
      (fun i j s => write s (cell r i j) (s (cell a i j) + s (cell b i j))) (fun i j => m (place a i j) + m (place b i j)) m
      (cells_inj r hr hd) (by
        intro i j s hi hj hs
        congr 1
        rw [hs (cell a i j), hs (cell b i j), cell_eq a ha i j (by omega) (by omega), cell_eq b hb i j (by omega) (by omega)]
        · intro i' j' hi' hj'
          rw [cell_eq r hr i' j' hi' hj', cell_eq b hb i j (by omega) (by omega)]
          exact fun e => hrb i' j' i j hi' hj' (by omega) (by omega) e.symm
        · intro i' j' hi' hj'
          rw [cell_eq r hr i' j' hi' hj', cell_eq a ha i j (by omega) (by omega)]
          exact fun e => hra i' j' i j hi' hj' (by omega) (by omega) e.symm)
    refine ⟨by simp [h1, h2, h3, h4], fun _ i j hi hj => ?_, fun c hc => ?_⟩
    · rw [← cell_eq r hr i j hi hj]; exact g1 i j hi hj
    · exact g2 c (fun i j hi hj => by rw [cell_eq r hr i j hi hj]; exact hc i j hi hj)
  · rw [if_neg h]
    refine ⟨?_, by simp, fun c _ => rfl⟩
    constructor
    · simp
    · intro h'; exact absurd ⟨⟨h'.1, h'.2.1⟩, h'.2.2⟩ h

/-- **C72.** `Copy` into `a`. -/
theorem c72_copy {K} (m : Mem K) (a b : Mat) (ha : Fits a) (hb : Fits b) (hd : Distinct a) (hab : Apart a b) :
    ((copy m a b).1 = true ↔ b.numRows = a.numRows ∧ b.numCols = a.numCols) ∧
    ((copy m a b).1 = true → ∀ i j, i < a.numRows → j < a.numCols → (copy m a b).2 (place a i j) = m (place b i j)) ∧
    Frame a m (copy m a b).2 := by
  unfold copy
  by_cases h : b.numRows = a.numRows ∧ b.numCols = a.numCols
  · rw [if_pos h]
    obtain ⟨h1, h2⟩ := h
    obtain ⟨g1, g2⟩ := grid (fun s => s) a.numRows a.numCols (cellCopy a)
      (fun i j s => write s (cellCopy a i j) (s (cell b i j))) (fun i j => m (place b i j)) m
      (by
        intro i j i' j' hi hj hi' hj' e
        rw [cellCopy_eq a ha i j hi hj, cellCopy_eq a ha i' j' hi' hj'] at e
        exact hd i j i' j' hi hj hi' hj' e) (by
        intro i j s hi hj hs
        congr 1
        rw [hs (cell b i j), cell_eq b hb i j (by omega) (by omega)]
        intro i' j' hi' hj'
        rw [cellCopy_eq a ha i' j' hi' hj', cell_eq b hb i j (by omega) (by omega)]
        exact fun e => hab i' j' i j hi' hj' (by omega) (by omega) e.symm)
    refine ⟨by simp [h1, h2], fun _ i j hi hj => ?_, fun c hc => ?_⟩
    · rw [← cellCopy_eq a ha i j hi hj]; exact g1 i j hi hj
    · exact g2 c (fun i j hi hj => by rw [cellCopy_eq a ha i j hi hj]; exact hc i j hi hj)
  · rw [if_neg h]
    exact ⟨by simp [h], by simp, fun c _ => rfl⟩

/-- **C72.** `SubMatrix`. -/
theorem c72_sub_matrix {K} (m : Mem K) (a r : Mat) (br er bc ec : Nat) (ha : Fits a) (hr : Fits r) (hd : Distinct r)
    (hra : Apart r a) :
    ((subMatrix m a br er bc ec r).1 = true ↔ br ≤ er ∧ er < a.numRows ∧ bc ≤ ec ∧ ec < a.numCols ∧
      r.numRows = er + 1 - br ∧ r.numCols = ec + 1 - bc) ∧
    ((subMatrix m a br er bc ec r).1 = true → ∀ i j, i < r.numRows → j < r.numCols →
      (subMatrix m a br er bc ec r).2 (place r i j) = m (place a (br + i) (bc + j))) ∧
    Frame r m (subMatrix m a br er bc ec r).2 := by
  unfold subMatrix
  by_cases h : br ≤ er ∧ bc ≤ ec ∧ er < a.numRows ∧ ec < a.numCols
  · rw [if_pos h]
    obtain ⟨h1, h2, h3, h4⟩ := h
    by_cases h' : r.numRows = er - br + 1 ∧ r.numCols = ec - bc + 1
    · rw [if_pos h']
      obtain ⟨h5, h6⟩ := h'
      rw [← h5, ← h6]
      obtain ⟨g1, g2⟩ := grid (fun s => s) r.numRows r.numCols (cell r)
        (fun i j s => write s (cell r i j) (s (cell a (br + i) (bc + j)))) (fun i j => m (place a (br + i) (bc + j))) m
        (cells_inj r hr hd) (by
          intro i j s hi hj hs
          congr 1
          rw [hs (cell a (br + i) (bc + j)), cell_eq a ha _ _ (by omega) (by omega)]
          intro i' j' hi' hj'
          rw [cell_eq r hr i' j' hi' hj', cell_eq a ha _ _ (by omega) (by omega)]
          exact fun e => hra i' j' _ _ hi' hj' (by omega) (by omega) e.symm)
      refine ⟨?_, fun _ i j hi hj => ?_, fun c hc => ?_⟩
      · simp only [true_iff]; omega
      · rw [← cell_eq r hr i j hi hj]; exact g1 i j hi hj
      · exact g2 c (fun i j hi hj => by rw [cell_eq r hr i j hi hj]; exact hc i j hi hj)
    · rw [if_neg h']
      refine ⟨?_, by simp, fun c _ => rfl⟩
      simp only [Bool.false_eq_true, false_iff]
      omega
  · rw [if_neg h]
    refine ⟨?_, by simp, fun c _ => rfl⟩
    simp only [Bool.false_eq_true, false_iff]
    omega

/-- **C72.** `Transpose`. -/
theorem c72_transpose {K} (m : Mem K) (a r : Mat) (ha : Fits a) (hr : Fits r) (hd : Distinct r) (hra : Apart r a) :
    ((transpose m a r).1 = true ↔ r.numCols = a.numRows ∧ r.numRows = a.numCols) ∧
    ((transpose m a r).1 = true → ∀ i j, i < a.numRows → j < a.numCols →
      (transpose m a r).2 (place r j i) = m (place a i j)) ∧
    Frame r m (transpose m a r).2 := by
  unfold transpose
  by_cases h : a.numRows = r.numCols ∧ a.numCols = r.numRows
  · rw [if_pos h]
    obtain ⟨h1, h2⟩ := h
    obtain ⟨g1, g2⟩ := grid (fun s => s) a.numRows a.numCols (fun i j => cell r j i)
      (fun i j s => write s (cell r j i) (s (cell a i j))) (fun i j => m (place a i j)) m
      (by
        intro i j i' j' hi hj hi' hj' e
        exact (cells_inj r hr hd j i j' i' (by omega) (by omega) (by omega) (by omega) e).symm) (by
        intro i j s hi hj hs
        congr 1
        rw [hs (cell a i j), cell_eq a ha i j hi hj]
        intro i' j' hi' hj'
        rw [cell_eq r hr j' i' (by omega) (by omega), cell_eq a ha i j hi hj]
        exact fun e => hra j' i' i j (by omega) (by omega) hi hj e.symm)
    refine ⟨by simp [h1, h2], fun _ i j hi hj => ?_, fun c hc => ?_⟩
    · rw [← cell_eq r hr j i (by omega) (by omega)]; exact g1 i j hi hj
    · exact g2 c (fun i j hi hj => by rw [cell_eq r hr j i (by omega) (by omega)]; exact hc j i (by omega) (by omega))
  · rw [if_neg h]
    refine ⟨?_, by simp, fun c _ => rfl⟩
    simp only [Bool.false_eq_true, false_iff]
    omega

private theorem square_eq {K} [CommRing K] (junk : Nat → Nat → K) (m : Mem K) (a : Mat) (ha : Fits a) (n : Nat) (h1 : a.numRows = n + 1)
    (h2 : a.numCols = n + 1) : det junk (n + 1) (fun i j => m (cell a i j)) = (square m a (n + 1)).det := by
  rw [det_eq]
  congr 1
  ext i j
  simp only [square, Matrix.of_apply]
  rw [cell_eq a ha i j (by omega) (by omega)]

/-- **C72.** `Determinant` of a square matrix with at least one row is its determinant; of any other it answers
`false`. -/
theorem c72_determinant {K} [CommRing K] (junk : Nat → Nat → K) (m : Mem K) (a : Mat) (ha : Fits a) (old : K) :
    (a.numRows ≠ a.numCols → determinant junk m a old = (false, old)) ∧
    (∀ n, 0 < n → a.numRows = n → a.numCols = n → determinant junk m a old = (true, (square m a n).det)) := by
  unfold determinant
  refine ⟨fun h => if_neg h, ?_⟩
  intro n hn h1 h2
  obtain ⟨k, rfl⟩ : ∃ k, n = k + 1 := ⟨n - 1, by omega⟩
  rw [if_pos (by omega), h1, square_eq junk m a ha k h1 h2]

/-- **C72.** `Inverse` of a square matrix with at least two rows answers `true` exactly when the determinant is not
zero; then the result is the inverse matrix, and otherwise nothing has changed. -/
theorem c72_inverse {K} [Field K] [DecidableEq K] (junk : Nat → Nat → K) (m : Mem K) (a v : Mat) (n : Nat) (hn : 2 ≤ n)
    (h1 : a.numRows = n) (h2 : a.numCols = n) (h3 : v.numRows = n) (h4 : v.numCols = n) (ha : Fits a) (hv : Fits v)
    (hd : Distinct v) (hva : Apart v a) :
    ((inverse junk m a v).1 = true ↔ (square m a n).det ≠ 0) ∧
    ((inverse junk m a v).1 = true →
      square m a n * square (inverse junk m a v).2 v n = 1 ∧ square (inverse junk m a v).2 v n * square m a n = 1) ∧
    ((inverse junk m a v).1 = false → (inverse junk m a v).2 = m) ∧
    Frame v m (inverse junk m a v).2 := by
  have hdet := (c72_determinant junk m a ha 0).2 n (by omega) h1 h2
  unfold inverse
  simp only [hdet]
  by_cases h0 : (square m a n).det = 0
  · rw [if_neg (by simp [h0])]
    exact ⟨by simp [h0], by simp, by simp, fun c _ => rfl⟩
  · rw [if_pos ⟨by omega, by omega, by omega, trivial, h0⟩]
    obtain ⟨k, rfl⟩ : ∃ k, n = k + 2 := ⟨n - 2, by omega⟩
    have hval : ∀ i j (hi : i < k + 2) (hj : j < k + 2) (s : Mem K) (g : Nat → Nat → K),
        (∀ x y, x < k + 2 → y < k + 2 → s (cell a x y) = m (place a x y)) →
        det junk (k + 2 - 1) (minorInv (k + 2) (k + 2) i j (fun x y => s (cell a x y)) g) * sign (i + j) / (square m a (k + 2)).det =
          (square m a (k + 2)).adjugate ⟨j, hj⟩ ⟨i, hi⟩ / (square m a (k + 2)).det := by
      intro i j hi hj s g hs
      congr 1
      rw [Matrix.adjugate_fin_succ_eq_det_submatrix, sign_eq, mul_comm]
      congr 1
      show det junk (k + 1) _ = _
      rw [det_eq]
      congr 1
      ext x y
      simp only [Matrix.of_apply, Matrix.submatrix_apply, square]
      rw [minorInv_spec (k + 1) i j hi hj _ g x y x.isLt y.isLt]
      have e1 := skip_succAbove (⟨i, hi⟩ : Fin (k + 1 + 1)) x
      have e2 := skip_succAbove (⟨j, hj⟩ : Fin (k + 1 + 1)) y
      simp only at e1 e2
      rw [e1, e2]
      exact hs _ _ (Fin.isLt _) (Fin.isLt _)
    rw [h1, h2]
    obtain ⟨g1, g2⟩ := grid (fun st : Mem K × (Nat → Nat → K) => st.1) (k + 2) (k + 2) (fun i j => cell v j i)
      (fun i j st => (write st.1 (cell v j i) (det junk (k + 2 - 1) (minorInv (k + 2) (k + 2) i j (fun x y => st.1 (cell a x y)) st.2) *
        sign (i + j) / (square m a (k + 2)).det), minorInv (k + 2) (k + 2) i j (fun x y => st.1 (cell a x y)) st.2))
      (fun i j => if h : i < k + 2 ∧ j < k + 2 then
        (square m a (k + 2)).adjugate ⟨j, h.2⟩ ⟨i, h.1⟩ / (square m a (k + 2)).det else 0) (m, junk)
      (by
        intro i j i' j' hi hj hi' hj' e
        exact (cells_inj v hv hd j i j' i' (by omega) (by omega) (by omega) (by omega) e).symm) (by
        intro i j s hi hj hs
        simp only
        congr 1
        rw [hval i j hi hj s.1 s.2, dif_pos ⟨hi, hj⟩]
        intro x y hx hy
        rw [hs (cell a x y), cell_eq a ha x y (by omega) (by omega)]
        intro i' j' hi' hj'
        rw [cell_eq v hv j' i' (by omega) (by omega), cell_eq a ha x y (by omega) (by omega)]
        exact fun e => hva j' i' x y (by omega) (by omega) (by omega) (by omega) e.symm)
    generalize hR : (loop (k + 2) _ (m, junk)) = R at g1 g2
    have hinv : square (R.1) v (k + 2) = (square m a (k + 2)).det⁻¹ • (square m a (k + 2)).adjugate := by
      ext j i
      have := g1 i j i.isLt j.isLt
      simp only [i.isLt, j.isLt, and_self, dif_pos] at this
      simp only [square, Matrix.of_apply, Matrix.smul_apply, smul_eq_mul]
      rw [← cell_eq v hv j i (by omega) (by omega), this, div_eq_inv_mul]
      rfl
    refine ⟨by simp [h0], fun _ => ⟨?_, ?_⟩, by simp, fun c hc => ?_⟩
    · rw [hinv, Matrix.mul_smul, Matrix.mul_adjugate, smul_smul, inv_mul_cancel₀ h0, one_smul]
    · rw [hinv, Matrix.smul_mul, Matrix.adjugate_mul, smul_smul, inv_mul_cancel₀ h0, one_smul]
    · exact g2 c (fun i j hi hj => by rw [cell_eq v hv j i (by omega) (by omega)]; exact hc j i (by omega) (by omega))

/-- **C72.** With other dimensions `Inverse` answers `false` and changes nothing. -/
theorem c72_inverse_dimensions {K} [Field K] [DecidableEq K] (junk : Nat → Nat → K) (m : Mem K) (a v : Mat)
    (h : ¬ (a.numRows = a.numCols ∧ v.numRows = a.numRows ∧ v.numCols = a.numCols)) : inverse junk m a v = (false, m) := by
  unfold inverse
  simp only
  rw [if_neg]
  rintro ⟨h1, h2, h3, _⟩
  exact h ⟨h1.symm, h2, h3⟩

/-- **C72 refuted** for one row: the inverse is zero, with the answer `true`. -/
theorem c72_inverse_one_fails {K} [Field K] [DecidableEq K] (junk : Nat → Nat → K) (m : Mem K) (a v : Mat)
    (h1 : a.numRows = 1) (h2 : a.numCols = 1) (h3 : v.numRows = 1) (h4 : v.numCols = 1) (ha : Fits a) (hv : Fits v)
    (h0 : m (place a 0 0) ≠ 0) :
    (inverse junk m a v).1 = true ∧ (inverse junk m a v).2 (place v 0 0) = 0 := by
  have hc := cell_eq a ha 0 0 (by omega) (by omega)
  unfold inverse
  simp only [determinant, h1, h2, h3, h4, if_true, det, hc]
  rw [if_pos ⟨trivial, trivial, trivial, trivial, h0⟩]
  refine ⟨rfl, ?_⟩
  rw [← cell_eq v hv 0 0 (by omega) (by omega)]
  simp [loop, det, write]

/-- **C72 refuted** for no rows: the determinant is 1. -/
theorem c72_determinant_none_fails {K} [Field K] (junk : Nat → Nat → K) (m : Mem K) (a : Mat) (old : K)
    (h1 : a.numRows = 0) (h2 : a.numCols = 0) :
    determinant junk m a old = (true, 0) ∧ (square m a 0).det = 1 := by
  simp [determinant, h1, h2, det]

/-- **C72 refuted** for a result that shares cells with an operand: the transpose of a matrix in its own place. -/
theorem c72_in_place_fails :
    (transpose (fun c => (c : Int)) ⟨2, 2, .flat 0⟩ ⟨2, 2, .flat 0⟩).1 = true ∧
    (transpose (fun c => (c : Int)) ⟨2, 2, .flat 0⟩ ⟨2, 2, .flat 0⟩).2 1 = 1 := by decide

/-- **C72 refuted** for more than `2^32` elements: two rows are in the same place. -/
theorem c72_large_fails (base j : Nat) : cell ⟨65537, 65536, .flat base⟩ 65536 j = cell ⟨65537, 65536, .flat base⟩ 0 j := by
  simp [cell]

/-- The hypotheses are met: a matrix in an array and one in rows. -/
example : Fits ⟨2, 2, .flat 0⟩ ∧ Distinct ⟨2, 2, .rows fun i => 10 + 5 * i⟩ ∧
    Apart ⟨2, 2, .rows fun i => 10 + 5 * i⟩ ⟨2, 2, .flat 0⟩ ∧
    (square (fun c => ([1, 2, 3, 4][c]?).getD (0 : ℚ)) ⟨2, 2, .flat 0⟩ 2).det = -2 := by
  refine ⟨?_, ?_, ?_, ?_⟩
  · simp [Fits]
  · intro i j i' j' hi hj hi' hj' h
    simp only [place] at *
    omega
  · intro i j i' j' hi hj hi' hj' h
    simp only [place] at *
    omega
  · rw [Matrix.det_fin_two]; simp [square, place]; norm_num
example : (inverse (fun _ _ => 9) (fun c => ([1, 2, 3, 4][c]?).getD (0 : ℚ)) ⟨2, 2, .flat 0⟩ ⟨2, 2, .flat 10⟩).1 = true := by
  decide +kernel

end Verif.MatrixOps
