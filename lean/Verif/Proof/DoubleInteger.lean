import Verif.Model.DoubleInteger
import Verif.Spec.DoubleInteger
set_option linter.unusedSimpArgs false
namespace Verif.DoubleInteger
open Verif.Spec.DoubleInteger

/-- All the bits. -/
def bv {n : Nat} (d : Dbl n) : BitVec (n + n) := d.upper ++ d.lower

theorem bv_toNat {n : Nat} (d : Dbl n) : (bv d).toNat = raw d.upper d.lower := by
  unfold bv raw
  rw [BitVec.toNat_append, ← Nat.shiftLeft_add_eq_or_of_lt d.lower.isLt, Nat.shiftLeft_eq]

theorem raw_lt {n : Nat} (u l : BitVec n) : raw u l < 2 ^ (n + n) := by
  have := (bv ⟨l, u⟩).isLt
  rw [bv_toNat] at this
  exact this

theorem bv_inj {n : Nat} {d e : Dbl n} (h : bv d = bv e) : d = e := by
  have h1 : ∀ i, (bv d).getLsbD i = (bv e).getLsbD i := fun i => by rw [h]
  cases d with
  | mk dl du =>
  cases e with
  | mk el eu =>
  simp only [Dbl.mk.injEq]
  constructor
  · apply BitVec.eq_of_getLsbD_eq
    intro i hi
    have := h1 i
    simp only [bv, BitVec.getLsbD_append, hi, decide_true, cond_true, if_true] at this
    exact this
  · apply BitVec.eq_of_getLsbD_eq
    intro i hi
    have := h1 (n + i)
    have h2 : ¬ (n + i < n) := by omega
    simp only [bv, BitVec.getLsbD_append, h2, decide_false, cond_false, if_false, Nat.add_sub_cancel_left, Bool.false_eq_true] at this
    exact this

theorem bv_getLsbD {n : Nat} (d : Dbl n) (i : Nat) :
    (bv d).getLsbD i = if i < n then d.lower.getLsbD i else d.upper.getLsbD (i - n) := by
  unfold bv
  rw [BitVec.getLsbD_append]
  try (by_cases h : i < n <;> simp [h])

theorem bv_not {n : Nat} (d : Dbl n) : bv (not d) = ~~~ bv d := by
  apply BitVec.eq_of_getLsbD_eq
  intro i hi
  rw [bv_getLsbD, BitVec.getLsbD_not, bv_getLsbD]
  by_cases h : i < n
  · simp [not, h, hi]
  · have : i - n < n := by omega
    simp [not, h, hi, this]

theorem bv_and {n : Nat} (d e : Dbl n) : bv (and d e) = bv d &&& bv e := by
  apply BitVec.eq_of_getLsbD_eq
  intro i hi
  rw [bv_getLsbD, BitVec.getLsbD_and, bv_getLsbD, bv_getLsbD]
  by_cases h : i < n <;> simp [and, h]

theorem bv_or {n : Nat} (d e : Dbl n) : bv (or d e) = bv d ||| bv e := by
  apply BitVec.eq_of_getLsbD_eq
  intro i hi
  rw [bv_getLsbD, BitVec.getLsbD_or, bv_getLsbD, bv_getLsbD]
  by_cases h : i < n <;> simp [or, h]

theorem ne_iff {n : Nat} (d e : Dbl n) : ne d e = true ↔ bv d ≠ bv e := by
  constructor
  · intro h he
    rw [bv_inj he] at h
    simp [ne] at h
  · intro h
    cases d with
    | mk dl du =>
    cases e with
    | mk el eu =>
    by_cases hu : du = eu
    · by_cases hl : dl = el
      · subst hu; subst hl; exact absurd rfl h
      · simp [ne, hl]
    · simp [ne, hu]

theorem bv_shl {n : Nat} (d : Dbl n) (k : Nat) : bv (shlAssign false d k) = bv d <<< k := by
  apply BitVec.eq_of_getLsbD_eq
  intro i hi
  rw [BitVec.getLsbD_shiftLeft, bv_getLsbD, bv_getLsbD]
  unfold shlAssign
  by_cases hk : k > 0
  · by_cases hkn : k < n
    · simp only [hk, hkn, if_true, tshr, Bool.false_eq_true, if_false]
      by_cases h : i < n
      · by_cases h2 : i < k
        · simp [h, h2, BitVec.getLsbD_shiftLeft, hi]
        · have h3 : i - k < n := by omega
          simp [h, h2, BitVec.getLsbD_shiftLeft, hi, h3]
      · have h2 : ¬ i < k := by omega
        by_cases h3 : i - n < k
        · have h4 : i - k < n := by omega
          have h5 : n - k + (i - n) = i - k := by omega
          simp [h, h2, h3, h4, BitVec.getLsbD_shiftLeft, hi, h5]
        · have h4 : ¬ i - k < n := by omega
          have h5 : ¬ (n - k + (i - n) < n) := by omega
          have h6 : i - n - k = i - k - n := by omega
          have h7 : d.lower.getLsbD (n - k + (i - n)) = false := BitVec.getLsbD_of_ge _ _ (by omega)
          have h8 : i - n < n := by omega
          simp only [h, h2, h3, h4, if_false, BitVec.getLsbD_or, BitVec.getLsbD_shiftLeft, BitVec.getLsbD_ushiftRight, hi, h6, h7, h8, decide_true, decide_false, Bool.not_false, Bool.true_and, Bool.or_false]
    · simp only [hk, hkn, if_true, if_false]
      by_cases h : i < n
      · have h2 : i < k := by omega
        simp [h, h2]
      · have h8 : i - n < n := by omega
        by_cases h2 : i < k
        · have h3 : i - n < k - n := by omega
          simp [h, h2, h3, BitVec.getLsbD_shiftLeft]
        · have h3 : ¬ i - n < k - n := by omega
          have h4 : i - k < n := by omega
          have h5 : i - n - (k - n) = i - k := by omega
          simp [h, h2, h3, h4, h5, h8, BitVec.getLsbD_shiftLeft, hi]
  · have hk0 : k = 0 := by omega
    subst hk0
    simp [hi]

theorem bv_shr {n : Nat} (d : Dbl n) (k : Nat) : bv (shrAssign false d k) = bv d >>> k := by
  apply BitVec.eq_of_getLsbD_eq
  intro i hi
  rw [BitVec.getLsbD_ushiftRight, bv_getLsbD, bv_getLsbD]
  unfold shrAssign
  by_cases hk : k > 0
  · by_cases hkn : k < n
    · simp only [hk, hkn, if_true, tshr, Bool.false_eq_true, if_false]
      by_cases h : i < n
      · by_cases h2 : k + i < n
        · have h3 : i < n - k := by omega
          simp [h, h2, h3, BitVec.getLsbD_shiftLeft]
        · have h3 : ¬ i < n - k := by omega
          have h4 : k + i - n = i - (n - k) := by omega
          have h7 : d.lower.getLsbD (k + i) = false := BitVec.getLsbD_of_ge _ _ (by omega)
          simp only [h, h2, h3, h4, h7, if_true, if_false, BitVec.getLsbD_or, BitVec.getLsbD_shiftLeft, BitVec.getLsbD_ushiftRight, decide_true, decide_false, Bool.not_false, Bool.true_and, Bool.false_or]
      · have h2 : ¬ k + i < n := by omega
        have h4 : k + i - n = k + (i - n) := by omega
        simp [h, h2, h4]
    · simp only [hk, hkn, if_true, if_false, tshr, tlt, Bool.false_eq_true]
      have h0 : d.upper.ult 0 = false := by simp only [BitVec.ult, BitVec.ofNat_eq_ofNat, BitVec.toNat_ofNat, Nat.zero_mod, Nat.not_lt_zero, decide_false]
      by_cases h : i < n
      · have h2 : ¬ k + i < n := by omega
        have h4 : k + i - n = k - n + i := by omega
        simp [h, h2, h4]
      · have h2 : ¬ k + i < n := by omega
        have h7 : d.upper.getLsbD (k + i - n) = false := BitVec.getLsbD_of_ge _ _ (by omega)
        simp only [h, h2, h7, if_false, h0, Bool.false_eq_true]
        simp
  · have hk0 : k = 0 := by omega
    subst hk0
    simp

/-! ## Additions and order -/

theorem raw_of_split (n : Nat) (x q : Nat) (u l : BitVec n) (h : x = q * (2 ^ n * 2 ^ n) + (u.toNat * 2 ^ n + l.toNat)) :
    raw u l = x % 2 ^ (n + n) := by
  have h1 := raw_lt u l
  have h2 : (2 : Nat) ^ (n + n) = 2 ^ n * 2 ^ n := Nat.pow_add 2 n n
  rw [h2] at h1 ⊢
  rw [h, Nat.mul_comm q, Nat.mul_add_mod]
  exact (Nat.mod_eq_of_lt h1).symm

theorem tlt_zero_signed {n : Nat} (a : BitVec n) : tlt true a 0 = decide (2 ^ n ≤ 2 * a.toNat) := by
  simp only [tlt, if_true, BitVec.slt]
  rw [decide_eq_decide]
  rw [BitVec.ofNat_eq_ofNat, BitVec.toInt_zero, BitVec.toInt_eq_toNat_cond]
  have := a.isLt
  split <;> omega

theorem tlt_signed {n : Nat} (a b : BitVec n) (h : (2 * a.toNat < 2 ^ n ↔ 2 * b.toNat < 2 ^ n)) :
    tlt true a b = decide (a.toNat < b.toNat) := by
  simp only [tlt, if_true, BitVec.slt]
  rw [decide_eq_decide, BitVec.toInt_eq_toNat_cond, BitVec.toInt_eq_toNat_cond]
  have := a.isLt
  have := b.isLt
  by_cases h1 : 2 * a.toNat < 2 ^ n
  · have h2 := h.1 h1
    simp only [h1, h2, if_true]; omega
  · have h2 : ¬ 2 * b.toNat < 2 ^ n := fun hh => h1 (h.2 hh)
    simp only [h1, h2, if_false]; omega

/-- The carry of the addition is the one of the lower halves. -/
theorem add_carry (s : Bool) {n : Nat} (d e : Dbl n) :
    add s d e = ⟨d.lower + e.lower, if 2 ^ n ≤ d.lower.toNat + e.lower.toNat then d.upper + e.upper + 1
      else d.upper + e.upper⟩ := by
  have ha := d.lower.isLt
  have hb := e.lower.isLt
  have hlo : (d.lower + e.lower).toNat = (d.lower.toNat + e.lower.toNat) % 2 ^ n := BitVec.toNat_add _ _
  have hsplit : (d.lower + e.lower).toNat = if 2 ^ n ≤ d.lower.toNat + e.lower.toNat
      then d.lower.toNat + e.lower.toNat - 2 ^ n else d.lower.toNat + e.lower.toNat := by
    rw [hlo]
    split
    · rw [Nat.mod_eq_sub_mod (by assumption), Nat.mod_eq_of_lt (by omega)]
    · exact Nat.mod_eq_of_lt (by omega)
  cases s with
  | false =>
    simp only [add, tlt, Bool.false_and, Bool.false_eq_true, if_false, Bool.not_false, if_true, BitVec.ult]
    by_cases hc : 2 ^ n ≤ d.lower.toNat + e.lower.toNat
    · simp only [hc, if_true] at hsplit
      have h1 : (d.lower + e.lower).toNat < d.lower.toNat := by omega
      have h2 : ¬ ((d.lower + e.lower).toNat < BitVec.toNat (0 : BitVec n)) := by simp only [BitVec.ofNat_eq_ofNat, BitVec.toNat_ofNat, Nat.zero_mod, Nat.not_lt_zero, not_false_eq_true]
      simp only [hc, h1, h2, decide_true, decide_false, Bool.true_or, Bool.not_false, Bool.and_self, if_true]
    · simp only [hc, if_false] at hsplit
      have h1 : ¬ (d.lower + e.lower).toNat < d.lower.toNat := by omega
      have h2 : ¬ (d.lower + e.lower).toNat < e.lower.toNat := by omega
      simp only [h1, h2, hc, decide_false, Bool.or_self, Bool.false_and, Bool.false_eq_true, if_false]
  | true =>
    simp only [add, Bool.true_and]
    by_cases hd : 2 ^ n ≤ 2 * d.lower.toNat
    · by_cases he : 2 ^ n ≤ 2 * e.lower.toNat
      · have hc : 2 ^ n ≤ d.lower.toNat + e.lower.toNat := by omega
        simp only [tlt_zero_signed, hd, he, hc, decide_true, Bool.and_self, if_true, Bool.not_true, Bool.false_eq_true, if_false]
      · by_cases hc : 2 ^ n ≤ d.lower.toNat + e.lower.toNat
        · simp only [hc, if_true] at hsplit
          have h0 : ¬ 2 ^ n ≤ 2 * (d.lower + e.lower).toNat := by omega
          have h1 : tlt true (d.lower + e.lower) e.lower = true := by
            rw [tlt_signed _ _ (by omega)]; simp only [decide_eq_true_eq]; omega
          simp only [tlt_zero_signed, hd, he, hc, h0, h1, decide_true, decide_false, Bool.and_false, Bool.false_eq_true,
            Bool.not_false, Bool.or_true, Bool.and_self, if_true, if_false]
        · simp only [hc, if_false] at hsplit
          have h0 : 2 ^ n ≤ 2 * (d.lower + e.lower).toNat := by omega
          simp only [tlt_zero_signed, hd, he, hc, h0, decide_true, decide_false, Bool.and_false, Bool.false_eq_true,
            Bool.not_false, Bool.not_true, Bool.or_true, Bool.and_self, if_true, if_false]
    · by_cases he : 2 ^ n ≤ 2 * e.lower.toNat
      · by_cases hc : 2 ^ n ≤ d.lower.toNat + e.lower.toNat
        · simp only [hc, if_true] at hsplit
          have h0 : ¬ 2 ^ n ≤ 2 * (d.lower + e.lower).toNat := by omega
          have h1 : tlt true (d.lower + e.lower) d.lower = true := by
            rw [tlt_signed _ _ (by omega)]; simp only [decide_eq_true_eq]; omega
          simp only [tlt_zero_signed, hd, he, hc, h0, h1, decide_true, decide_false, Bool.and_false, Bool.false_and,
            Bool.false_eq_true, Bool.true_or, Bool.not_false, Bool.or_true, Bool.and_self, if_true, if_false]
        · simp only [hc, if_false] at hsplit
          have h0 : 2 ^ n ≤ 2 * (d.lower + e.lower).toNat := by omega
          simp only [tlt_zero_signed, hd, he, hc, h0, decide_true, decide_false, Bool.and_false, Bool.false_and,
            Bool.false_eq_true, Bool.not_false, Bool.not_true, Bool.or_true, Bool.and_self, if_true, if_false]
      · have hc : ¬ 2 ^ n ≤ d.lower.toNat + e.lower.toNat := by omega
        simp only [hc, if_false] at hsplit
        by_cases h0 : 2 ^ n ≤ 2 * (d.lower + e.lower).toNat
        · simp only [tlt_zero_signed, hd, he, hc, h0, decide_true, decide_false, Bool.and_false, Bool.false_and,
            Bool.false_eq_true, Bool.not_false, Bool.not_true, Bool.or_true, Bool.and_self, if_true, if_false]
        · have h1 : tlt true (d.lower + e.lower) d.lower = false := by
            rw [tlt_signed _ _ (by omega)]; simp only [decide_eq_false_iff_not]; omega
          have h2 : tlt true (d.lower + e.lower) e.lower = false := by
            rw [tlt_signed _ _ (by omega)]; simp only [decide_eq_false_iff_not]; omega
          simp only [tlt_zero_signed, hd, he, hc, h0, h1, h2, decide_true, decide_false, Bool.and_false, Bool.false_and,
            Bool.false_eq_true, Bool.not_false, Bool.not_true, Bool.or_self, Bool.and_self, if_true, if_false]

/-- The borrow of the subtraction is the one of the lower halves. -/
theorem sub_borrow (s : Bool) {n : Nat} (d e : Dbl n) :
    sub s d e = ⟨d.lower - e.lower, if d.lower.toNat < e.lower.toNat then d.upper - e.upper - 1
      else d.upper - e.upper⟩ := by
  have ha := d.lower.isLt
  have hb := e.lower.isLt
  cases s with
  | false =>
    simp only [sub, tlt, Bool.false_and, Bool.false_eq_true, if_false, Bool.or_self, Bool.not_false, if_true, BitVec.ult]
    by_cases hc : d.lower.toNat < e.lower.toNat <;> simp [hc]
  | true =>
    simp only [sub, Bool.true_and]
    by_cases hd : 2 ^ n ≤ 2 * d.lower.toNat
    · by_cases he : 2 ^ n ≤ 2 * e.lower.toNat
      · have h1 := tlt_signed d.lower e.lower (by omega)
        by_cases hc : d.lower.toNat < e.lower.toNat <;>
          simp only [tlt_zero_signed, hd, he, h1, hc, decide_true, decide_false, Bool.and_false, Bool.false_and,
            Bool.not_true, Bool.not_false, Bool.false_eq_true, Bool.or_self, if_true, if_false]
      · have hc : ¬ d.lower.toNat < e.lower.toNat := by omega
        simp only [tlt_zero_signed, hd, he, hc, decide_true, decide_false, Bool.and_false, Bool.false_and,
            Bool.not_true, Bool.not_false, Bool.false_eq_true, Bool.or_self, Bool.and_self, Bool.or_true, if_true, if_false]
    · by_cases he : 2 ^ n ≤ 2 * e.lower.toNat
      · have hc : d.lower.toNat < e.lower.toNat := by omega
        simp only [tlt_zero_signed, hd, he, hc, decide_true, decide_false, Bool.and_false, Bool.false_and,
            Bool.not_true, Bool.not_false, Bool.false_eq_true, Bool.or_self, Bool.and_self, Bool.true_or, if_true, if_false]
      · have h1 := tlt_signed d.lower e.lower (by omega)
        by_cases hc : d.lower.toNat < e.lower.toNat <;>
          simp only [tlt_zero_signed, hd, he, h1, hc, decide_true, decide_false, Bool.and_false, Bool.false_and,
            Bool.not_true, Bool.not_false, Bool.false_eq_true, Bool.or_self, if_true, if_false]

theorem bv_add (s : Bool) {n : Nat} (hn : 0 < n) (d e : Dbl n) : bv (add s d e) = bv d + bv e := by
  apply BitVec.eq_of_toNat_eq
  rw [BitVec.toNat_add, bv_toNat, bv_toNat, bv_toNat, add_carry s]
  have ha := d.lower.isLt
  have hb := e.lower.isLt
  have h1 : (1 : Nat) % 2 ^ n = 1 := Nat.mod_eq_of_lt (Nat.one_lt_two_pow (by omega))
  apply raw_of_split (q := (d.upper.toNat + e.upper.toNat + (d.lower.toNat + e.lower.toNat) / 2 ^ n) / 2 ^ n)
  have hlo : (d.lower + e.lower).toNat = (d.lower.toNat + e.lower.toNat) % 2 ^ n := BitVec.toNat_add _ _
  have hup : (if 2 ^ n ≤ d.lower.toNat + e.lower.toNat then d.upper + e.upper + 1 else d.upper + e.upper).toNat
      = (d.upper.toNat + e.upper.toNat + (d.lower.toNat + e.lower.toNat) / 2 ^ n) % 2 ^ n := by
    split
    · rename_i hc
      have : (d.lower.toNat + e.lower.toNat) / 2 ^ n = 1 := by
        apply Nat.div_eq_of_lt_le <;> omega
      rw [this]
      simp only [BitVec.toNat_add, BitVec.ofNat_eq_ofNat, BitVec.toNat_ofNat, Nat.mod_add_mod, h1]
    · rename_i hc
      have : (d.lower.toNat + e.lower.toNat) / 2 ^ n = 0 := Nat.div_eq_of_lt (by omega)
      rw [this]
      simp only [BitVec.toNat_add, Nat.add_zero]
  rw [hup, hlo]
  have e1 := Nat.div_add_mod (d.lower.toNat + e.lower.toNat) (2 ^ n)
  have e2 := Nat.div_add_mod (d.upper.toNat + e.upper.toNat + (d.lower.toNat + e.lower.toNat) / 2 ^ n) (2 ^ n)
  simp only [raw]
  generalize (d.lower.toNat + e.lower.toNat) / 2 ^ n = c at *
  generalize (d.lower.toNat + e.lower.toNat) % 2 ^ n = l at *
  generalize (d.upper.toNat + e.upper.toNat + c) / 2 ^ n = q at *
  generalize (d.upper.toNat + e.upper.toNat + c) % 2 ^ n = u at *
  generalize 2 ^ n = N at *
  have e3 : N * (N * q + u) = N * (d.upper.toNat + e.upper.toNat + c) := by rw [e2]
  simp only [Nat.mul_add] at e3
  have a1 := Nat.mul_comm d.upper.toNat N
  have a2 := Nat.mul_comm e.upper.toNat N
  have a3 := Nat.mul_comm u N
  have a4 : q * (N * N) = N * (N * q) := by rw [Nat.mul_comm q, Nat.mul_assoc]
  omega

theorem bv_sub (s : Bool) {n : Nat} (hn : 0 < n) (d e : Dbl n) : bv (sub s d e) = bv d - bv e := by
  have key : bv (sub s d e) + bv e = bv d := by
    rw [← bv_add false hn, add_carry false, sub_borrow]
    congr 1
    have hl : d.lower - e.lower + e.lower = d.lower := BitVec.sub_add_cancel _ _
    have hb := e.lower.isLt
    have ha := d.lower.isLt
    have hs : (d.lower - e.lower).toNat = (2 ^ n - e.lower.toNat + d.lower.toNat) % 2 ^ n := BitVec.toNat_sub _ _
    have hcond : (2 ^ n ≤ (d.lower - e.lower).toNat + e.lower.toNat) ↔ d.lower.toNat < e.lower.toNat := by
      by_cases hc : d.lower.toNat < e.lower.toNat
      · rw [hs, Nat.mod_eq_of_lt (by omega)]; omega
      · rw [hs, Nat.mod_eq_sub_mod (by omega), Nat.mod_eq_of_lt (by omega)]; omega
    by_cases hc : d.lower.toNat < e.lower.toNat
    · have h2 := hcond.2 hc
      simp only [hc, if_true, h2, hl]
      have : d.upper - e.upper - 1 + e.upper + 1 = d.upper := by
        rw [BitVec.add_assoc, BitVec.add_comm e.upper 1, ← BitVec.add_assoc, BitVec.sub_add_cancel, BitVec.sub_add_cancel]
      rw [this]
    · have h2 : ¬ 2 ^ n ≤ (d.lower - e.lower).toNat + e.lower.toNat := fun h => hc (hcond.1 h)
      simp only [hc, if_false, h2, hl, BitVec.sub_add_cancel]
  rw [← key, BitVec.add_sub_cancel]

theorem gt_lex (s : Bool) {n : Nat} (d e : Dbl n) :
    gt s d e = if d.upper = e.upper then decide (e.lower.toNat < d.lower.toNat) else tlt s e.upper d.upper := by
  have ha := d.lower.isLt
  have hb := e.lower.isLt
  unfold gt
  by_cases hu : d.upper = e.upper
  · simp only [hu, if_true]
    cases s with
    | false => simp [tlt, BitVec.ult]
    | true =>
      simp only [Bool.true_and]
      by_cases hd : 2 ^ n ≤ 2 * d.lower.toNat
      · by_cases he : 2 ^ n ≤ 2 * e.lower.toNat
        · have h1 := tlt_signed e.lower d.lower (by omega)
          simp only [tlt_zero_signed, hd, he, h1, decide_true, decide_false, Bool.not_true, Bool.not_false, Bool.and_self,
            Bool.and_false, Bool.false_and, Bool.false_eq_true, if_true, if_false]
        · have hc : e.lower.toNat < d.lower.toNat := by omega
          simp only [tlt_zero_signed, hd, he, hc, decide_true, decide_false, Bool.not_true, Bool.not_false, Bool.and_self,
            Bool.and_false, Bool.false_and, Bool.false_eq_true, if_true, if_false]
      · by_cases he : 2 ^ n ≤ 2 * e.lower.toNat
        · have hc : ¬ e.lower.toNat < d.lower.toNat := by omega
          simp only [tlt_zero_signed, hd, he, hc, decide_true, decide_false, Bool.not_true, Bool.not_false, Bool.and_self,
            Bool.and_false, Bool.false_and, Bool.false_eq_true, if_true, if_false]
        · have h1 := tlt_signed e.lower d.lower (by omega)
          simp only [tlt_zero_signed, hd, he, h1, decide_true, decide_false, Bool.not_true, Bool.not_false, Bool.and_self,
            Bool.and_false, Bool.false_and, Bool.false_eq_true, if_true, if_false]
  · simp only [hu, if_false]

/-- Two numbers in base `N` compare as their upper halves, and as the lower ones when these are equal. -/
theorem lex_cmp (N : Int) (u v l m : Int) (hl : 0 ≤ l ∧ l < N) (hm : 0 ≤ m ∧ m < N) :
    (v * N + m < u * N + l) ↔ (v < u ∨ (v = u ∧ m < l)) := by
  have hN : 0 < N := by omega
  constructor
  · intro h
    rcases Int.lt_trichotomy v u with h1 | h1 | h1
    · exact .inl h1
    · subst h1; exact .inr ⟨rfl, by omega⟩
    · exfalso
      have : (u + 1) * N ≤ v * N := Int.mul_le_mul_of_nonneg_right (by omega) (by omega)
      rw [Int.add_mul, Int.one_mul] at this
      omega
  · rintro (h | ⟨rfl, h⟩)
    · have : (v + 1) * N ≤ u * N := Int.mul_le_mul_of_nonneg_right (by omega) (by omega)
      rw [Int.add_mul, Int.one_mul] at this
      omega
    · omega

theorem gt_value (s : Bool) {n : Nat} (d e : Dbl n) :
    gt s d e = decide (value s d.upper d.lower > value s e.upper e.lower) := by
  have ha := d.lower.isLt
  have hb := e.lower.isLt
  have hN : ((2 ^ n : Nat) : Int) = (2 : Int) ^ n := by push_cast; rfl
  rw [gt_lex]
  unfold value
  have key := lex_cmp ((2 : Int) ^ n) (if s = true then d.upper.toInt else (d.upper.toNat : Int))
    (if s = true then e.upper.toInt else (e.upper.toNat : Int)) d.lower.toNat e.lower.toNat
    ⟨by omega, by rw [← hN]; omega⟩ ⟨by omega, by rw [← hN]; omega⟩
  rw [Bool.eq_iff_iff, decide_eq_true_iff, gt_iff_lt, key]
  by_cases hu : d.upper = e.upper
  · simp [hu]
  · simp only [hu, if_false]
    cases s with
    | false =>
      have : e.upper.toNat ≠ d.upper.toNat := fun h => hu (BitVec.eq_of_toNat_eq h.symm)
      simp only [tlt, BitVec.ult, Bool.false_eq_true, if_false, decide_eq_true_iff]
      omega
    | true =>
      have : e.upper.toInt ≠ d.upper.toInt := fun h => hu (BitVec.eq_of_toInt_eq h.symm)
      simp only [tlt, BitVec.slt, if_true, decide_eq_true_iff]
      omega

end Verif.DoubleInteger

namespace Verif.DoubleInteger
open Verif.Spec.DoubleInteger

theorem value_unsigned {n : Nat} (d : Dbl n) : value false d.upper d.lower = ((bv d).toNat : Int) := by
  rw [bv_toNat]; simp [value, raw]

theorem value_signed {n : Nat} (hn : 0 < n) (d : Dbl n) : value true d.upper d.lower = (bv d).toInt := by
  have hl := d.lower.isLt
  have hu := d.upper.isLt
  have hp : (2 : Nat) ^ (n + n) = 2 ^ n * 2 ^ n := Nat.pow_add 2 n n
  rw [BitVec.toInt_eq_toNat_cond, bv_toNat]
  unfold value raw
  simp only [if_true]
  rw [BitVec.toInt_eq_toNat_cond, hp]
  have h2 : 2 ^ n = 2 * 2 ^ (n - 1) := by
    rw [← Nat.pow_succ', show (n - 1).succ = n by omega]
  have hiff : 2 * (d.upper.toNat * 2 ^ n + d.lower.toNat) < 2 ^ n * 2 ^ n ↔ 2 * d.upper.toNat < 2 ^ n := by
    generalize d.upper.toNat = u at *
    generalize d.lower.toNat = l at *
    generalize 2 ^ n = N at *
    constructor
    · intro h
      apply Nat.lt_of_mul_lt_mul_right (a := N)
      have e1 : 2 * u * N = 2 * (u * N) := Nat.mul_assoc _ _ _
      omega
    · intro h
      have h3 : u + 1 ≤ 2 ^ (n - 1) := by omega
      have h4 : (u + 1) * N ≤ 2 ^ (n - 1) * N := Nat.mul_le_mul_right _ h3
      have h5 : N * N = 2 * (2 ^ (n - 1) * N) := by rw [← Nat.mul_assoc, ← h2]
      rw [Nat.add_mul, Nat.one_mul] at h4
      omega
  by_cases h : 2 * d.upper.toNat < 2 ^ n
  · have h' := hiff.2 h
    simp only [h, h', if_true]
    push_cast; rfl
  · have h' : ¬ 2 * (d.upper.toNat * 2 ^ n + d.lower.toNat) < 2 ^ n * 2 ^ n := fun hh => h (hiff.1 hh)
    simp only [h, h', if_false]
    push_cast
    rw [Int.sub_mul]
    omega

theorem value_inj (s : Bool) {n : Nat} (hn : 0 < n) (d e : Dbl n) :
    value s d.upper d.lower = value s e.upper e.lower ↔ bv d = bv e := by
  cases s with
  | false =>
    rw [value_unsigned, value_unsigned]
    exact ⟨fun h => BitVec.eq_of_toNat_eq (by omega), fun h => by rw [h]⟩
  | true =>
    rw [value_signed hn, value_signed hn]
    exact ⟨fun h => BitVec.eq_of_toInt_eq h, fun h => by rw [h]⟩

theorem sshr_clear {n : Nat} (x : BitVec n) (hx : 2 * x.toNat < 2 ^ n) (k : Nat) : x.sshiftRight k = x >>> k := by
  apply BitVec.sshiftRight_eq_of_msb_false
  rw [BitVec.msb_eq_decide]
  by_cases hn : n = 0
  · subst hn; have := x.isLt; simp_all
  · have h2 : 2 ^ n = 2 * 2 ^ (n - 1) := by
      rw [← Nat.pow_succ', show (n - 1).succ = n by omega]
    simp only [decide_eq_false_iff_not]
    omega

theorem shl_signed {n : Nat} (d : Dbl n) (k : Nat) (h : 2 * d.lower.toNat < 2 ^ n ∨ n ≤ k ∨ k = 0) :
    shlAssign true d k = shlAssign false d k := by
  unfold shlAssign
  by_cases hk : k > 0
  · by_cases hkn : k < n
    · have h1 : 2 * d.lower.toNat < 2 ^ n := by omega
      simp only [hk, hkn, if_true, tshr, Bool.false_eq_true, if_false, sshr_clear _ h1]
    · simp only [hk, hkn, if_true, if_false]
  · simp only [hk, if_false]

theorem bv_sshr {n : Nat} (d : Dbl n) (k : Nat) (h : 2 * d.lower.toNat < 2 ^ n ∨ n ≤ k ∨ k = 0) :
    bv (shrAssign true d k) = (bv d).sshiftRight k := by
  apply BitVec.eq_of_getLsbD_eq
  intro i hi
  have hn : 0 < n := by omega
  have hmsb : (bv d).msb = d.upper.msb := by
    rw [BitVec.msb_eq_getLsbD_last, bv_getLsbD, BitVec.msb_eq_getLsbD_last]
    have h1 : ¬ (n + n - 1 < n) := by omega
    have h2 : n + n - 1 - n = n - 1 := by omega
    rw [if_neg h1, h2]
  rw [BitVec.getLsbD_sshiftRight, hmsb, bv_getLsbD, bv_getLsbD]
  have hi' : ¬ n + n ≤ i := by omega
  unfold shrAssign
  by_cases hk : k > 0
  · by_cases hkn : k < n
    · have h1 : 2 * d.lower.toNat < 2 ^ n := by omega
      have hl := sshr_clear _ h1 k
      simp only [hk, hkn, if_true, tshr, hl]
      by_cases h : i < n
      · have hlt : k + i < n + n := by omega
        by_cases h2 : k + i < n
        · have h3 : i < n - k := by omega
          simp [h, h2, h3, BitVec.getLsbD_shiftLeft, hi', hlt]
        · have h3 : ¬ i < n - k := by omega
          have h4 : k + i - n = i - (n - k) := by omega
          have h7 : d.lower.getLsbD (k + i) = false := BitVec.getLsbD_of_ge _ _ (by omega)
          simp only [h, h2, h3, h4, h7, hi', hlt, if_true, if_false, BitVec.getLsbD_or, BitVec.getLsbD_shiftLeft,
            BitVec.getLsbD_ushiftRight, decide_true, decide_false, Bool.not_false, Bool.true_and, Bool.false_or]
      · have h2 : ¬ k + i < n := by omega
        have h5 : ¬ n ≤ i - n := by omega
        by_cases h6 : k + (i - n) < n
        · have hlt : k + i < n + n := by omega
          have h4 : k + i - n = k + (i - n) := by omega
          simp only [h, h2, hi', hlt, h4, h5, h6, if_true, if_false, BitVec.getLsbD_sshiftRight, decide_false,
            Bool.not_false, Bool.true_and]
        · have hlt : ¬ k + i < n + n := by omega
          simp only [h, h2, hi', hlt, h5, h6, if_true, if_false, BitVec.getLsbD_sshiftRight, decide_false,
            Bool.not_false, Bool.true_and]
    · simp only [hk, hkn, if_true, if_false, tshr, tlt]
      by_cases h : i < n
      · have h2 : ¬ k + i < n := by omega
        have h5 : ¬ n ≤ i := by omega
        by_cases h6 : k - n + i < n
        · have hlt : k + i < n + n := by omega
          have h4 : k + i - n = k - n + i := by omega
          simp only [h, h2, hi', hlt, h4, h5, h6, if_true, if_false, BitVec.getLsbD_sshiftRight, decide_false,
            Bool.not_false, Bool.true_and]
        · have hlt : ¬ k + i < n + n := by omega
          simp only [h, h2, hi', hlt, h5, h6, if_true, if_false, BitVec.getLsbD_sshiftRight, decide_false,
            Bool.not_false, Bool.true_and]
      · have hlt : ¬ k + i < n + n := by omega
        have h8 : i - n < n := by omega
        have hs : d.upper.slt 0 = d.upper.msb := by
          have := tlt_zero_signed d.upper
          simp only [tlt, if_true] at this
          rw [this, BitVec.msb_eq_decide]
          have h2 : 2 ^ n = 2 * 2 ^ (n - 1) := by
            rw [← Nat.pow_succ', show (n - 1).succ = n by omega]
          rw [decide_eq_decide]; omega
        simp only [h, hi', hlt, if_false, hs, decide_false, Bool.not_false, Bool.true_and]
        cases d.upper.msb <;> simp [h8]
  · have hk0 : k = 0 := by omega
    subst hk0
    by_cases h : i < n
    · have hlt : i < n + n := by omega
      simp [h, hi', hlt]
    · simp [h, hi', hi]

theorem bv_ofT_nat {n m : Nat} (x : BitVec m) :
    (bv (ofT n false x)).toNat = x.toNat % 2 ^ (n + n) := by
  rw [bv_toNat]
  by_cases h0 : x = 0
  · subst h0; simp [ofT, raw]
  · have hx : tlt false 0 x = true := by
      have : x.toNat ≠ 0 := fun h => h0 (BitVec.eq_of_toNat_eq (by simpa using h))
      simp only [tlt, BitVec.ult, Bool.false_eq_true, if_false, BitVec.ofNat_eq_ofNat, BitVec.toNat_ofNat, Nat.zero_mod,
        decide_eq_true_iff]
      omega
    have hxl := x.isLt
    unfold ofT
    simp only [h0, hx, if_true, if_false]
    by_cases hm : m > n
    · simp only [hm, if_true, tshr, Bool.false_eq_true, if_false]
      apply raw_of_split (q := x.toNat / 2 ^ n / 2 ^ n)
      simp only [BitVec.toNat_setWidth, BitVec.toNat_ushiftRight, Nat.shiftRight_eq_div_pow]
      have e1 := Nat.div_add_mod x.toNat (2 ^ n)
      have e2 := Nat.div_add_mod (x.toNat / 2 ^ n) (2 ^ n)
      generalize x.toNat / 2 ^ n = q at *
      generalize x.toNat % 2 ^ n = l at *
      generalize q / 2 ^ n = a at *
      generalize q % 2 ^ n = u at *
      generalize 2 ^ n = N at *
      have e3 : N * (N * a + u) = N * q := by rw [e2]
      rw [Nat.mul_add] at e3
      have a3 := Nat.mul_comm u N
      have a4 : a * (N * N) = N * (N * a) := by rw [Nat.mul_comm a, Nat.mul_assoc]
      omega
    · simp only [hm, if_false]
      have hle : 2 ^ m ≤ 2 ^ n := Nat.pow_le_pow_right (by omega) (by omega)
      apply raw_of_split (q := 0)
      simp only [BitVec.toNat_setWidth, BitVec.ofNat_eq_ofNat, BitVec.toNat_ofNat, Nat.zero_mod]
      rw [Nat.mod_eq_of_lt (by omega)]
      omega

theorem bv_ofT_int {n m : Nat} (hm0 : 0 < m) (x : BitVec m) : bv (ofT n true x) = x.signExtend (n + n) := by
  apply BitVec.eq_of_getLsbD_eq
  intro i hi
  rw [bv_getLsbD, BitVec.getLsbD_signExtend]
  have hn : 0 < n := by omega
  by_cases h0 : x = 0
  · subst h0
    have hz : (0 : BitVec m).msb = false := by simp
    simp [ofT, hz]
  · have hs : tlt true 0 x = !x.msb := by
      have hx0 : x.toNat ≠ 0 := fun h => h0 (BitVec.eq_of_toNat_eq (by simpa using h))
      simp only [tlt, if_true, BitVec.slt, BitVec.ofNat_eq_ofNat, BitVec.toInt_zero]
      rw [BitVec.msb_eq_decide, BitVec.toInt_eq_toNat_cond]
      have h2 : 2 ^ m = 2 * 2 ^ (m - 1) := by
        rw [← Nat.pow_succ', show (m - 1).succ = m by omega]
      have := x.isLt
      rw [← decide_not, decide_eq_decide]
      split <;> omega
    unfold ofT
    simp only [h0, hs, if_false]
    by_cases hm : m > n
    · simp only [hm, if_true, ite_self]
      by_cases h : i < n
      · have h2 : i < m := by omega
        simp [h, h2, hi]
      · have h8 : i - n < n := by omega
        have h9 : n + (i - n) = i := by omega
        simp only [h, hi, if_false, if_true, tshr, BitVec.getLsbD_setWidth, h8, decide_true, Bool.true_and,
          BitVec.getLsbD_sshiftRight, h9]
        by_cases h10 : i < m
        · have h11 : ¬ m ≤ i - n := by omega
          simp [h10, h11]
        · by_cases h11 : m ≤ i - n
          · omega
          · simp [h10, h11]
    · simp only [hm, if_false]
      cases hb : x.msb with
      | false =>
        simp only [Bool.not_false, if_true]
        by_cases h : i < n
        · by_cases h2 : i < m
          · simp [h, h2, hi]
          · have h7 : x.getLsbD i = false := BitVec.getLsbD_of_ge _ _ (by omega)
            simp [h, h2, hi, h7]
        · have h2 : ¬ i < m := by omega
          simp [h, h2]
      | true =>
        simp only [Bool.not_true, Bool.false_eq_true, if_false]
        by_cases h : i < n
        · simp only [h, hi, if_true, BitVec.getLsbD_signExtend, hb]
        · have h2 : ¬ i < m := by omega
          have h8 : i - n < n := by omega
          simp [h, h2, hi, h8]

end Verif.DoubleInteger
