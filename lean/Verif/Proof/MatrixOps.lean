import Verif.Spec.MatrixOps
set_option linter.unusedSimpArgs false
set_option linter.unusedVariables false
namespace Verif.MatrixOps
open Verif.Spec.MatrixOps
open Finset

theorem cell_eq (a : Mat) (hs : Fits a) (i j : Nat) (hi : i < a.numRows) (hj : j < a.numCols) : cell a i j = place a i j := by
  unfold cell place Fits at *
  cases h : a.store with
  | rows p => rfl
  | flat b =>
    rw [h] at hs
    simp only at hs ⊢
    have h1 : (i + 1) * a.numCols ≤ a.numRows * a.numCols := Nat.mul_le_mul_right _ hi
    rw [Nat.add_mul] at h1
    rw [Nat.mod_eq_of_lt (by omega)]

theorem cellCopy_eq (a : Mat) (hs : Fits a) (i j : Nat) (hi : i < a.numRows) (hj : j < a.numCols) : cellCopy a i j = place a i j := by
  unfold cellCopy place Fits at *
  cases h : a.store with
  | rows p => rfl
  | flat b =>
    rw [h] at hs
    simp only at hs ⊢
    have h1 : (i + 1) * a.numCols ≤ a.numRows * a.numCols := Nat.mul_le_mul_right _ hi
    rw [Nat.add_mul] at h1
    rw [Nat.mod_eq_of_lt (by omega), Nat.add_assoc]

theorem write_same {K} (m : Mem K) (c : Nat) (v : K) : write m c v c = v := by simp [write]
theorem write_other {K} (m : Mem K) (c d : Nat) (v : K) (h : d ≠ c) : write m c v d = m d := by simp [write, h]

/-- Filling a grid of cells, one after the other, with values that depend only on what is outside. -/
theorem grid {K σ} (proj : σ → Mem K) (R C : Nat) (c : Nat → Nat → Nat) (step : Nat → Nat → σ → σ) (v : Nat → Nat → K) (s0 : σ)
    (hinj : ∀ i j i' j', i < R → j < C → i' < R → j' < C → c i j = c i' j' → i = i' ∧ j = j')
    (hstep : ∀ i j s, i < R → j < C → (∀ d, (∀ i j, i < R → j < C → d ≠ c i j) → proj s d = proj s0 d) →
      proj (step i j s) = write (proj s) (c i j) (v i j)) :
    (∀ i j, i < R → j < C → proj (loop R (fun i => loop C (step i)) s0) (c i j) = v i j) ∧
    (∀ d, (∀ i j, i < R → j < C → d ≠ c i j) → proj (loop R (fun i => loop C (step i)) s0) d = proj s0 d) := by
  have inner : ∀ i, i < R → ∀ (s : σ), (∀ d, (∀ i j, i < R → j < C → d ≠ c i j) → proj s d = proj s0 d) → ∀ C', C' ≤ C →
      (∀ j, j < C' → proj (loop C' (step i) s) (c i j) = v i j) ∧
      (∀ d, (∀ j, j < C' → d ≠ c i j) → proj (loop C' (step i) s) d = proj s d) := by
    intro i hi s hs C'
    induction C' with
    | zero => intro _; exact ⟨fun j h => by omega, fun d _ => rfl⟩
    | succ C' ih =>
      intro hC
      obtain ⟨h1, h2⟩ := ih (by omega)
      have h3 := hstep i C' (loop C' (step i) s) hi (by omega)
        (fun d hd => by rw [h2 d (fun j hj => hd i j hi (by omega)), hs d hd])
      refine ⟨?_, ?_⟩
      · intro j hj
        rw [loop, h3]
        by_cases hjc : j = C'
        · subst hjc; exact write_same _ _ _
        · rw [write_other _ _ _ _ (fun e => hjc (hinj i j i C' hi (by omega) hi (by omega) e).2)]
          exact h1 j (by omega)
      · intro d hd
        rw [loop, h3, write_other _ _ _ _ (hd C' (by omega))]
        exact h2 d (fun j hj => hd j (by omega))
  have outer : ∀ R', R' ≤ R →
      (∀ i j, i < R' → j < C → proj (loop R' (fun i => loop C (step i)) s0) (c i j) = v i j) ∧
      (∀ d, (∀ i j, i < R' → j < C → d ≠ c i j) → proj (loop R' (fun i => loop C (step i)) s0) d = proj s0 d) := by
    intro R'
    induction R' with
    | zero => intro _; exact ⟨fun i j h => by omega, fun d _ => rfl⟩
    | succ R' ih =>
      intro hR
      obtain ⟨h1, h2⟩ := ih (by omega)
      obtain ⟨h3, h4⟩ := inner R' (by omega) (loop R' (fun i => loop C (step i)) s0)
        (fun d hd => h2 d (fun i j hi hj => hd i j (by omega) hj)) C (Nat.le_refl _)
      refine ⟨?_, ?_⟩
      · intro i j hi hj
        rw [loop]
        by_cases hiR : i = R'
        · subst hiR; exact h3 j hj
        · rw [h4 _ (fun j' hj' e => hiR (hinj i j R' j' (by omega) hj (by omega) hj' e).1)]
          exact h1 i j (by omega) hj
      · intro d hd
        rw [loop, h4 d (fun j hj => hd R' j (by omega) hj)]
        exact h2 d (fun i j hi hj => hd i j (by omega) hj)
  exact outer R (Nat.le_refl _)

theorem loop_sum {K} [AddCommMonoid K] (t : Nat → K) : ∀ n, loop n (fun k acc => acc + t k) 0 = ∑ k ∈ range n, t k
  | 0 => by simp [loop]
  | n + 1 => by rw [loop, loop_sum t n, Finset.sum_range_succ]

/-- The loop of one element of a product. -/
theorem product_element {K} [NonUnitalNonAssocSemiring K] (s : Mem K) (c : Nat) (x y : Nat → Nat) (n : Nat) (hx : ∀ k, k < n → x k ≠ c) (hy : ∀ k, k < n → y k ≠ c) :
    loop n (fun k s => write s c (s c + s (x k) * s (y k))) (write s c 0) =
      write s c (∑ k ∈ range n, s (x k) * s (y k)) := by
  induction n with
  | zero => simp [loop]
  | succ n ih =>
    rw [loop, ih (fun k h => hx k (by omega)) (fun k h => hy k (by omega)), Finset.sum_range_succ]
    funext d
    simp only [write]
    by_cases hd : d = c
    · simp [hd, hx n (by omega), hy n (by omega)]
    · simp [hd]

/-- The column `b` of a minor without the column `k`. -/
def skip (k b : Nat) : Nat := if b < k then b else b + 1

theorem fillRow_spec {K} (k : Nat) (src : Nat → K) (n : Nat) (g : Nat → Nat → K) (c : Nat) :
    (fillRow c k src n g).1 = (if c ≤ k then c else c - 1) ∧
    (∀ b, b < (if c ≤ k then c else c - 1) → (fillRow c k src n g).2 n b = src (skip k b)) ∧
    (∀ a b, a ≠ n → (fillRow c k src n g).2 a b = g a b) := by
  induction c with
  | zero => simp [fillRow, loop]
  | succ c ih =>
    obtain ⟨h1, h2, h3⟩ := ih
    have he : fillRow (c + 1) k src n g = if c ≠ k then ((fillRow c k src n g).1 + 1, put (fillRow c k src n g).2 n (fillRow c k src n g).1 (src c))
        else fillRow c k src n g := rfl
    by_cases hck : c = k
    · rw [he, if_neg (by simpa using hck)]
      subst hck
      simp only [Nat.le_refl, if_true] at h1 h2
      have h0 : ¬ (c + 1 ≤ c) := by omega
      simp only [h0, if_false, Nat.add_sub_cancel]
      exact ⟨h1, h2, h3⟩
    · rw [he, if_pos hck]
      refine ⟨?_, ?_, ?_⟩
      · simp only; rw [h1]; split <;> split <;> omega
      · intro b hb
        simp only [put]
        by_cases hbm : b = (fillRow c k src n g).1
        · simp only [hbm, and_self, if_true]
          congr 1
          rw [h1]
          unfold skip
          split <;> split <;> omega
        · simp only [hbm, and_false, if_false]
          apply h2
          rw [h1] at hbm
          split at hb <;> split at hbm <;> split <;> omega
      · intro a b ha
        simp only [put, ha, false_and, if_false]
        exact h3 a b ha

theorem minorDet_spec {K} (n k : Nat) (hk : k < n + 2) (f g : Nat → Nat → K) (a b : Nat) (ha : a < n + 1) (hb : b < n + 1) :
    minorDet (n + 2) (n + 2) k f g a b = f (a + 1) (skip k b) := by
  have H : ∀ c, (loop c (fun i st => (st.1 + 1, (fillRow (n + 2) k (f (i + 1)) st.1 st.2).2)) (0, g)).1 = c ∧
      ∀ a, a < c → (loop c (fun i st => (st.1 + 1, (fillRow (n + 2) k (f (i + 1)) st.1 st.2).2)) (0, g)).2 a b = f (a + 1) (skip k b) := by
    intro c
    induction c with
    | zero => exact ⟨rfl, fun a h => by omega⟩
    | succ c ih =>
      obtain ⟨h1, h2⟩ := ih
      refine ⟨by rw [loop, h1], ?_⟩
      intro a ha
      rw [loop, h1]
      obtain ⟨_, f2, f3⟩ := fillRow_spec k (f (c + 1)) c (loop c (fun i st => (st.1 + 1, (fillRow (n + 2) k (f (i + 1)) st.1 st.2).2)) (0, g)).2 (n + 2)
      by_cases hac : a = c
      · subst hac
        exact f2 b (by split <;> omega)
      · rw [f3 a b hac]
        exact h2 a (by omega)
  exact (H (n + 1)).2 a ha

theorem minorInv_spec {K} (n i j : Nat) (hi : i < n + 1) (hj : j < n + 1) (f g : Nat → Nat → K) (a b : Nat) (ha : a < n) (hb : b < n) :
    minorInv (n + 1) (n + 1) i j f g a b = f (skip i a) (skip j b) := by
  have H : ∀ c, (loop c (fun h st => if h ≠ i then (st.1 + 1, (fillRow (n + 1) j (f h) st.1 st.2).2) else st) (0, g)).1 = (if c ≤ i then c else c - 1) ∧
      ∀ a, a < (if c ≤ i then c else c - 1) →
        (loop c (fun h st => if h ≠ i then (st.1 + 1, (fillRow (n + 1) j (f h) st.1 st.2).2) else st) (0, g)).2 a b = f (skip i a) (skip j b) := by
    intro c
    induction c with
    | zero => exact ⟨by simp [loop], fun a h => by simp at h⟩
    | succ c ih =>
      obtain ⟨h1, h2⟩ := ih
      generalize hst : loop c (fun h st => if h ≠ i then (st.1 + 1, (fillRow (n + 1) j (f h) st.1 st.2).2) else st) (0, g) = st at h1 h2
      rw [loop, hst]
      by_cases hci : c = i
      · rw [if_neg (by simpa using hci)]
        subst hci
        simp only [Nat.le_refl, if_true] at h1 h2
        have h0 : ¬ (c + 1 ≤ c) := by omega
        simp only [h0, if_false, Nat.add_sub_cancel]
        exact ⟨h1, h2⟩
      · rw [if_pos hci]
        obtain ⟨_, f2, f3⟩ := fillRow_spec j (f c) st.1 st.2 (n + 1)
        refine ⟨?_, ?_⟩
        · simp only; rw [h1]; split <;> split <;> omega
        · intro a ha
          simp only
          by_cases hac : a = st.1
          · rw [hac, f2 b (by split <;> omega)]
            congr 1
            rw [h1]
            unfold skip
            split <;> split <;> omega
          · rw [f3 a b hac]
            apply h2
            rw [h1] at hac
            split at ha <;> split at hac <;> split <;> omega
  obtain ⟨_, h2⟩ := H (n + 1)
  exact h2 a (by split <;> omega)

theorem skip_succAbove {n : Nat} (k : Fin (n + 1)) (b : Fin n) : skip k b = (k.succAbove b : Nat) := by
  unfold skip Fin.succAbove
  by_cases h : (b : Nat) < k
  · have : b.castSucc < k := h
    simp [h, this]
  · have : ¬ b.castSucc < k := h
    simp [h, this]

theorem sign_eq {K} [CommRing K] (k : Nat) : (sign k : K) = (-1) ^ k := by
  unfold sign
  rw [Nat.and_one_is_mod]
  rcases Nat.even_or_odd k with h | h
  · rw [if_pos (Nat.even_iff.1 h), h.neg_one_pow]
  · rw [if_neg (by rw [Nat.odd_iff.1 h]; decide), h.neg_one_pow]

/-- The recursion over the minors of the first row is the determinant. -/
theorem det_eq {K} [CommRing K] (junk : Nat → Nat → K) (n : Nat) : ∀ f : Nat → Nat → K,
    det junk (n + 1) f = Matrix.det (Matrix.of fun i j : Fin (n + 1) => f i j) := by
  induction n with
  | zero => intro f; simp [det]
  | succ n ih =>
    intro f
    rw [det, loop_sum (fun k => (sign k * f 0 k) * det junk (n + 1) (minorDet (n + 2) (n + 2) k f junk)) (n + 2)]
    rw [Matrix.det_succ_row_zero, Finset.sum_range]
    apply Finset.sum_congr rfl
    intro k _
    rw [ih, sign_eq]
    congr 1
    congr 1
    ext a b
    simp only [Matrix.of_apply, Matrix.submatrix_apply, Fin.val_succ]
    rw [minorDet_spec n k k.isLt f junk a b a.isLt b.isLt, skip_succAbove k b]

end Verif.MatrixOps
