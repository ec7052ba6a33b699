import Verif.Proof.Format2
set_option linter.unusedSimpArgs false
set_option maxRecDepth 8000
namespace Verif.IntText
open Verif.Spec.IntText

/-- Text of a number that is not the minimum of a signed type, in any field. -/
theorem printDecimal_body (t : IType) (ht : IsCxxType t) (n : Int) (hn : InRange t n) (hmin : n ≠ minVal t ∨ n = 0) :
    ∃ ds : List UInt8, (∀ c ∈ ds, IsDigit c) ∧ ds ≠ [] ∧ digitsValue 0 ds = n.natAbs ∧ (ds.head? = some 48 → ds = [48]) ∧
    ∀ (size : Nat) (padded left zeros : Bool), 0 < size →
      printDecimal t n size padded left zeros =
        if size < ((if n < 0 then [45] else []) ++ ds).length then
          (if (padded || zeros) && !left then List.replicate (size - 1) (if zeros then 48 else 32) else []) ++ [63] ++
          (if (padded || zeros) && left then List.replicate (size - 1) 32 else [])
        else
          (if (padded || zeros) && !left then
            List.replicate (size - ((if n < 0 then [45] else []) ++ ds).length) (if zeros then 48 else 32) else []) ++
          ((if n < 0 then [45] else []) ++ ds) ++
          (if (padded || zeros) && left then
            List.replicate (size - ((if n < 0 then [45] else []) ++ ds).length) 32 else []) := by
  have ft := typeFacts t ht
  have hmm := ft.maxmax_eq
  have hbig := ft.big
  obtain ⟨hlo, hhi⟩ := hn
  have hnm : ¬ (n = t.cast (2 ^ (t.w - 1)) ∧ n < 0) := by
    rintro ⟨h1, h2⟩
    have hsg : t.signed = true := by
      cases h' : t.signed
      · have : minVal t = 0 := by simp [minVal, h']
        omega
      · rfl
    have : t.cast (2 ^ (t.w - 1)) = minVal t := by
      rcases t with ⟨w, s⟩; simp only at hsg; subst hsg
      rcases ht with h | h | h | h <;> simp only at h <;> subst h <;> decide
    rcases hmin with h | h
    · exact h (by omega)
    · omega
  have hb : (decide (n = t.cast (2 ^ (t.w - 1))) && decide (n < 0)) = false := by
    simp only [Bool.and_eq_false_iff, decide_eq_false_iff_not]; omega
  have hneg : n < 0 → - maxVal t ≤ n := by
    intro h
    have hsg : t.signed = true := by
      cases h' : t.signed
      · have : minVal t = 0 := by simp [minVal, h']
        omega
      · rfl
    have hme := ft.min_eq hsg
    omega
  have hpos : (if n < 0 then t.cast (-n) else n) = n.natAbs := by
    split
    · rename_i h
      have := hneg h
      rw [ft.cast_id _ (by have := ft.min_le; omega) (by omega)]; omega
    · omega
  have habs : (n.natAbs : Int) ≤ maxVal t := by
    by_cases h : n < 0
    · have := hneg h; omega
    · omega
  have hw : (n.natAbs : Int) ≤ 2 ^ t.w - 1 := by
    have : maxVal t ≤ 2 ^ t.w - 1 := by
      rcases t with ⟨w, s⟩
      rcases ht with h | h | h | h <;> simp only at h <;> subst h <;> cases s <;> decide
    omega
  have htext := printPositive_text t ht n.natAbs hw
  obtain ⟨o1, o2, o3⟩ := orderOfMagnitude_spec t ht n.natAbs (by omega) habs
  have hlen : (printPositive t.w n.natAbs).length = 1 + orderOfMagnitude t n.natAbs := by
    have hup := length_of_value _ htext.digits htext.noLeadingZero (orderOfMagnitude t n.natAbs)
      (by rw [htext.value]; exact_mod_cast o1)
    have hlow := value_lt_pow _ htext.digits
    rw [htext.value] at hlow
    have hne : 0 < (printPositive t.w n.natAbs).length := List.length_pos_iff.mpr htext.nonempty
    by_cases hz : n.natAbs = 0
    · rw [o3 (by omega)] at hup ⊢; omega
    · have o2' := o2 (by omega)
      have h1 : (10 : Int) ^ orderOfMagnitude t n.natAbs < 10 ^ (printPositive t.w n.natAbs).length := by omega
      have h2 : 10 ^ orderOfMagnitude t n.natAbs < 10 ^ (printPositive t.w n.natAbs).length := by exact_mod_cast h1
      have := (Nat.pow_lt_pow_iff_right (by omega : 1 < 10)).mp h2
      omega
  have hns : (if n < 0 then 2 else 1) + orderOfMagnitude t n.natAbs =
      ((if n < 0 then [45] else ([] : List UInt8)) ++ printPositive t.w n.natAbs).length := by
    rw [List.length_append, hlen]
    split <;> simp <;> omega
  refine ⟨printPositive t.w n.natAbs, htext.digits, htext.nonempty, htext.value, htext.noLeadingZero, ?_⟩
  intro size padded left zeros hs
  unfold printDecimal
  simp only [if_neg (show ¬ size = 0 by omega), hb, Bool.false_and, Bool.false_eq_true, if_false, hpos, Int.toNat_natCast]
  rw [hns]
  simp only [List.append_assoc]

theorem printDecimal_zero (t : IType) (n : Int) (padded left zeros : Bool) :
    printDecimal t n 0 padded left zeros = printDecimal t n 0 false false false := by
  unfold printDecimal
  simp only [if_true, Bool.false_and, Bool.false_eq_true, if_false]

/-- The minimum of a signed type, when no padding is asked. -/
theorem printDecimal_min (t : IType) (ht : IsCxxType t) (n : Int) (h1 : n = minVal t) (h2 : n < 0) (size : Nat) (hs : 0 < size) (left : Bool) :
    printDecimal t n size false left false =
      if size < (printDecimal t n 0 false false false).length then [63] else printDecimal t n 0 false false false := by
  have hsg : t.signed = true := by
    cases h' : t.signed
    · have : minVal t = 0 := by simp [minVal, h']
      omega
    · rfl
  have hc : t.cast (2 ^ (t.w - 1)) = n := by
    rw [h1]
    rcases t with ⟨w, s⟩; simp only at hsg; subst hsg
    rcases ht with h | h | h | h <;> simp only at h <;> subst h <;> decide
  have hw : minTextSize t.w = (minText t.w).length ∧ minTextSize t.w ≤ 20 := by
    rcases ht with h | h | h | h <;> rw [h] <;> decide
  unfold printDecimal
  simp only [if_true, if_neg (show ¬ size = 0 by omega), hc, h2, decide_true, Bool.true_and, Bool.and_true, Bool.or_false,
    Bool.false_and, Bool.false_eq_true, if_false, List.nil_append, List.append_nil, ge_iff_le, hw.2, decide_eq_true_eq]
  rw [← hw.1]
  by_cases hl : minTextSize t.w ≤ size
  · rw [if_pos hl, if_neg (by omega)]
  · rw [if_neg hl, if_pos (by omega), if_pos (by omega)]

theorem printRadix_zero (r : Radix) (t : IType) (n : Int) (padded left header : Bool) (zb : Nat) :
    printRadix r t n 0 padded left zb header = printRadix r t n 0 false false zb header := by
  unfold printRadix
  simp only [if_true, Bool.false_and]

/-- A number in another base in a field: the text it has without a field, with as many zeros as there is place for. -/
theorem printRadix_field (r : Radix) (t : IType) (ht : IsCxxType t) (n : Int) (hn : InRange t n) (size : Nat) (hs : 0 < size)
    (padded left header : Bool) (zb : Nat) (hz : zb ≤ 64) (B : List UInt8)
    (hBdef : B = printRadix r t n 0 false false
      (r.bits * min ((zb + r.bits - 1) / r.bits) (size - if header then 2 else 0)) header) :
    printRadix r t n size padded left zb header =
      if size < B.length then
        (if padded && !left then List.replicate (size - 1) 32 else []) ++ [63] ++
        (if padded && left then List.replicate (size - 1) 32 else [])
      else
        (if padded && !left then List.replicate (size - B.length) 32 else []) ++ B ++
        (if padded && left then List.replicate (size - B.length) 32 else []) := by
  obtain ⟨f1, f2, f3⟩ := size_facts r t ht n hn
  have hk : 1 ≤ r.bits ∧ (r.bits = 1 ∨ r.bits = 3 ∨ r.bits = 4) := by cases r <;> simp [Radix.bits]
  have hzeq : (zb + (r.bits - 1)) / r.bits = (zb + r.bits - 1) / r.bits := by congr 1; omega
  have hzd : r.bits * ((zb + r.bits - 1) / r.bits) ≤ 66 ∧ (zb + r.bits - 1) / r.bits ≤ 66 := by
    rcases hk.2 with h | h | h <;> rw [h] <;> omega
  generalize hH : (if header = true then 2 else 0) = H at *
  have hH2 : H ≤ 2 := by rw [← hH]; split <;> omega
  generalize hZ : (zb + r.bits - 1) / r.bits = Z at *
  have hZ' : (r.bits * min Z (size - H) + (r.bits - 1)) / r.bits = min Z (size - H) := by
    rcases hk.2 with h | h | h <;> rw [h] <;> omega
  have hZb : r.bits * min Z (size - H) ≤ 66 := by
    have : r.bits * min Z (size - H) ≤ r.bits * Z := Nat.mul_le_mul_left _ (by omega)
    omega
  -- the digits of the text without a field
  have hdig : ∀ nd, numberOfDigits r t n ≤ nd → r.bits * nd ≤ 66 →
      (radixLoop r.bits t.w (n % (2 ^ t.w : Int)).toNat nd ((((nd - 1) * r.bits % 256 : Nat) : Int).bmod 256)).length = nd := by
    intro nd h1 h2
    have : r.bits * (nd - 1) ≤ r.bits * nd := Nat.mul_le_mul_left _ (by omega)
    exact (digits_text r t ht n hn nd h1 (by omega)).1
  have hhead : (if header = true then [48, r.letter] else []).length = H := by
    rw [← hH]; cases header <;> simp
  have hB : B = (if header = true then [48, r.letter] else []) ++
      radixLoop r.bits t.w (n % (2 ^ t.w : Int)).toNat (max (numberOfDigits r t n) (min Z (size - H)))
        ((((max (numberOfDigits r t n) (min Z (size - H)) - 1) * r.bits % 256 : Nat) : Int).bmod 256) := by
    rw [hBdef]
    unfold printRadix
    simp only [if_true, Bool.false_and, Bool.false_eq_true, if_false, List.nil_append, List.append_nil, hH, hZ']
    rw [if_neg (show ¬ 1000 < H + numberOfDigits r t n by omega)]
    have hbz : min Z (size - H) ≤ 66 := by omega
    by_cases hz1 : min Z (size - H) > numberOfDigits r t n
    · simp only [if_pos hz1]
      rw [if_neg (show ¬ H + min Z (size - H) > 1000 by omega), Nat.max_eq_right (by omega)]
    · simp only [if_neg hz1]
      rw [Nat.max_eq_left (by omega)]
  have hmul : r.bits * max (numberOfDigits r t n) (min Z (size - H)) ≤ 66 := by
    rcases Nat.le_total (numberOfDigits r t n) (min Z (size - H)) with h | h
    · rw [Nat.max_eq_right h]; exact hZb
    · rw [Nat.max_eq_left h]; exact f3
  have hBlen : B.length = H + max (numberOfDigits r t n) (min Z (size - H)) := by
    rw [hB, List.length_append, hhead, hdig _ (by omega) hmul]
  unfold printRadix
  simp only [if_neg (show ¬ size = 0 by omega), hH, hzeq]
  by_cases hlt : size < H + numberOfDigits r t n
  · rw [if_pos hlt, if_pos (show size < B.length by omega)]
  · rw [if_neg hlt, if_neg (show ¬ size < B.length by omega)]
    have hsz : (if Z > numberOfDigits r t n then
        if H + Z > size then (size, Z - (H + Z - size)) else (H + Z, Z)
        else (H + numberOfDigits r t n, numberOfDigits r t n)) =
        (H + max (numberOfDigits r t n) (min Z (size - H)), max (numberOfDigits r t n) (min Z (size - H))) := by
      by_cases h1 : Z > numberOfDigits r t n
      · by_cases h2 : H + Z > size
        · rw [if_pos h1, if_pos h2, Nat.max_eq_right (by omega), Nat.min_eq_right (by omega)]
          simp only [Prod.mk.injEq]; omega
        · rw [if_pos h1, if_neg h2, Nat.max_eq_right (by omega), Nat.min_eq_left (by omega)]
      · rw [if_neg h1, Nat.max_eq_left (by omega)]
    simp only [hsz]
    rw [hBlen, hB]
    simp only [List.append_assoc]

end Verif.IntText
