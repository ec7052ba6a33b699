import Verif.Proof.IntPrint

namespace Verif.IntText
open Verif.Spec.IntText

/-- **C15.** Decimal conversion of any text `sign ++ body` of at most 1000 characters: it succeeds exactly
when every character of the body is a digit and the signed value fits in the destination type, and then the
stored number is that value.  (A text without sign is one whose first character is not a sign; a minus sign on
an unsigned type is the subject of `c15_unsigned_minus_rejected`.) -/
theorem c15_decimal_exact_partial (t : IType) (ht : IsCxxType t) (s : Sign) (body : List UInt8)
    (hlen : (s.text ++ body).length ≤ 1000)
    (hs : s = .none → body.head? ≠ some 43 ∧ body.head? ≠ some 45)
    (hu : s = .minus → t.signed = true) :
    ((decimal t (s.text ++ body)).1 = true ↔ (∀ c ∈ body, IsDigit c) ∧ InRange t (signedValue s body)) ∧
    ((decimal t (s.text ++ body)).1 = true → (decimal t (s.text ++ body)).2 = signedValue s body) := by
  have ft := typeFacts t ht
  have hmm := ft.maxmax_eq
  have hbig := ft.big
  cases s with
  | minus =>
    have hsg := hu rfl
    simp only [Sign.text, List.length_append, List.length_cons, List.length_nil] at hlen
    have key := decLoop_spec t ft true (t.maxmax % 10 + 1) (by simp) body (1000 - 1) (by omega)
      { ret := true, number := 0, isMin := false } rfl (by simp) (by simp; omega) (by simp)
    simp only [Bool.false_eq_true, if_false, if_true, Int.add_zero] at key
    simp only [decimal, Sign.text, List.cons_append, List.nil_append, List.head?_cons, decide_true, if_true,
      List.drop_one, List.tail_cons, hsg, Bool.and_self, signedValue]
    generalize decLoop t true (t.maxmax / 10) (t.maxmax % 10 + 1) (1000 - 1) body _ = s' at *
    have hmn := ft.min_eq hsg
    have hdv : (∀ c ∈ body, IsDigit c) → 0 ≤ digitsValue 0 body := fun h =>
      digitsValue_ge 0 body h (by omega)
    constructor
    · rw [key.1]; unfold InRange
      constructor
      · rintro ⟨h1, h2⟩; have := hdv h1; exact ⟨h1, by omega, by omega⟩
      · rintro ⟨h1, h2, h3⟩; exact ⟨h1, by omega⟩
    · intro hr
      obtain ⟨k1, k2, k3, k4⟩ := key.2 hr
      have e1 : t.cast (-s'.number) = -s'.number := ft.cast_id _ (by omega) (by omega)
      rw [e1]
      cases hmin : s'.isMin
      · simp only [hmin, Bool.false_eq_true, if_false] at k3 ⊢; omega
      · simp only [hmin, if_true] at k3 ⊢
        have h2 := (key.1.mp hr).2
        rw [ft.cast_id _ (by omega) (by omega)]; omega
  | plus =>
    simp only [Sign.text, List.length_append, List.length_cons, List.length_nil] at hlen
    have key := decLoop_spec t ft false (t.maxmax % 10) (by simp) body (1000 - 1) (by omega)
      { ret := true, number := 0, isMin := false } rfl (by simp) (by simp; omega) (by simp)
    simp only [Bool.false_eq_true, if_false, if_true, Int.add_zero] at key
    simp only [decimal, Sign.text, List.cons_append, List.nil_append, List.head?_cons,
      List.drop_one, List.tail_cons, signedValue, Option.some.injEq, show ¬ ((43 : UInt8) = 45) by decide,
      decide_false, Bool.false_eq_true, if_false, Bool.and_false, if_true]
    generalize decLoop t false (t.maxmax / 10) (t.maxmax % 10) (1000 - 1) body _ = s' at *
    have hml := ft.min_le
    have hdv : (∀ c ∈ body, IsDigit c) → 0 ≤ digitsValue 0 body := fun h =>
      digitsValue_ge 0 body h (by omega)
    constructor
    · rw [key.1]; unfold InRange
      constructor
      · rintro ⟨h1, h2⟩; have := hdv h1; exact ⟨h1, by omega, by omega⟩
      · rintro ⟨h1, h2, h3⟩; exact ⟨h1, by omega⟩
    · intro hr
      obtain ⟨k1, k2, k3, k4⟩ := key.2 hr
      cases hmin : s'.isMin
      · simp only [hmin, Bool.false_eq_true, if_false] at k3; omega
      · simp [hmin] at k4
  | none =>
    obtain ⟨h43, h45⟩ := hs rfl
    simp only [Sign.text, List.nil_append] at hlen
    have key := decLoop_spec t ft false (t.maxmax % 10) (by simp) body (1000 - 0) (by omega)
      { ret := true, number := 0, isMin := false } rfl (by simp) (by simp; omega) (by simp)
    simp only [Bool.false_eq_true, if_false, if_true, Int.add_zero] at key
    simp only [decimal, Sign.text, List.nil_append, h43, h45, signedValue,
      decide_false, Bool.false_eq_true, if_false, Bool.and_false, List.drop_zero]
    generalize decLoop t false (t.maxmax / 10) (t.maxmax % 10) (1000 - 0) body _ = s' at *
    have hml := ft.min_le
    have hdv : (∀ c ∈ body, IsDigit c) → 0 ≤ digitsValue 0 body := fun h =>
      digitsValue_ge 0 body h (by omega)
    constructor
    · rw [key.1]; unfold InRange
      constructor
      · rintro ⟨h1, h2⟩; have := hdv h1; exact ⟨h1, by omega, by omega⟩
      · rintro ⟨h1, h2, h3⟩; exact ⟨h1, by omega⟩
    · intro hr
      obtain ⟨k1, k2, k3, k4⟩ := key.2 hr
      cases hmin : s'.isMin
      · simp only [hmin, Bool.false_eq_true, if_false] at k3; omega
      · simp [hmin] at k4

/-- "-128" fits in `int8`, "-129" does not. -/
example : (decimal ⟨8, true⟩ ([45] ++ [49, 50, 56])).2 = -128 ∧
    (decimal ⟨8, true⟩ ([45] ++ [49, 50, 57])).1 = false :=
  ⟨(c15_decimal_exact_partial ⟨8, true⟩ (.inl rfl) .minus [49, 50, 56] (by decide) (by decide) (by decide)).2
    ((c15_decimal_exact_partial ⟨8, true⟩ (.inl rfl) .minus [49, 50, 56] (by decide) (by decide) (by decide)).1.mpr
      (by refine ⟨?_, by unfold InRange; decide⟩
          intro c hc; simp at hc; rcases hc with rfl | rfl | rfl <;> unfold IsDigit <;> decide)),
   by decide⟩

/-- **C15.** A minus sign on an unsigned destination is always refused. -/
theorem c15_unsigned_minus_rejected (t : IType) (hu : t.signed = false) (body : List UInt8) :
    decimal t (Sign.minus.text ++ body) = (false, 0) := by
  simp [decimal, Sign.text, hu]

/-- The length restriction of `c15_decimal_exact_partial` is needed: after 1000 characters the code stops
reading and reports success, so `"+"`, 999 zeros and `"7"` is converted to 0. -/
theorem c15_long_text_truncated :
    decimal ⟨32, true⟩ ([43] ++ (List.replicate 999 48 ++ [55])) = (true, 0) := by
  decide +kernel

/-- **C15 (API dispatcher).** For a text that does not begin with `0`, `StringToInteger` is the decimal
conversion; the single character `0` is zero; a `0` followed by a further digit is refused although its value
may fit. -/
theorem c15_dispatch (t : IType) :
    (∀ xs : List UInt8, xs.head? ≠ some 48 → stringToInteger t xs = decimal t xs) ∧
    stringToInteger t [48] = (true, 0) ∧
    (∀ c xs, IsDigit c → (stringToInteger t (48 :: c :: xs)).1 = false) := by
  refine ⟨?_, rfl, ?_⟩
  · intro xs h
    match xs with
    | [] => rfl
    | c :: xs =>
      have hc : c ≠ 48 := by simpa using h
      unfold stringToInteger
      split
      · rename_i heq; exact absurd (List.cons.inj heq).1 hc
      · rfl
  · intro c xs hc
    unfold IsDigit at hc
    have h1 : c ≠ 120 := by rintro rfl; revert hc; decide
    have h2 : c ≠ 111 := by rintro rfl; revert hc; decide
    have h3 : c ≠ 98 := by rintro rfl; revert hc; decide
    unfold stringToInteger
    simp only
    split <;> simp_all

/-- **C16.** The text written for a number with the default format is its decimal text: a minus sign iff
negative, then digits without superfluous leading zeros whose value is the magnitude. -/
theorem c16_print_is_decimal (t : IType) (ht : IsCxxType t) (n : Int) (hn : InRange t n)
    (padded leftAligned : Bool) :
    ∃ body, printDecimal t n 0 padded leftAligned false = (if n < 0 then [45] else []) ++ body ∧
      (∀ c ∈ body, IsDigit c) ∧ body ≠ [] ∧ digitsValue 0 body = n.natAbs ∧
      (body.head? = some 48 → body = [48]) := by
  have ft := typeFacts t ht
  have hmm := ft.maxmax_eq
  have hbig := ft.big
  obtain ⟨hlo, hhi⟩ := hn
  unfold printDecimal
  simp only [if_true, Bool.false_and, Bool.false_eq_true, if_false, List.nil_append, List.append_nil]
  by_cases hm : n = t.cast (2 ^ (t.w - 1)) ∧ n < 0
  · -- minimum value: literal text
    simp only [hm.1.symm, hm.2, decide_true, Bool.true_and, if_true, Bool.and_true]
    have hsg : t.signed = true := by
      cases h : t.signed
      · have : minVal t = 0 := by simp [minVal, h]
        omega
      · rfl
    rcases t with ⟨w, s⟩; simp only at hsg; subst hsg
    rcases ht with h | h | h | h <;> simp only at h <;> subst h <;>
      simp only [minTextSize, ge_iff_le, show ¬ (8 = 64) by decide, show ¬ (8 = 32) by decide,
        show ¬ (8 = 16) by decide, show ¬ (16 = 64) by decide, show ¬ (16 = 32) by decide,
        show ¬ (32 = 64) by decide, if_true, if_false, Nat.reduceLeDiff, decide_true, Nat.le_refl]
    · refine ⟨[49, 50, 56], by rfl, ?_, by decide, ?_, by decide⟩
      · intro c hc; revert c; unfold IsDigit; decide
      · rw [hm.1]; decide
    · refine ⟨[51, 50, 55, 54, 56], by rfl, ?_, by decide, ?_, by decide⟩
      · intro c hc; revert c; unfold IsDigit; decide
      · rw [hm.1]; decide
    · refine ⟨[50, 49, 52, 55, 52, 56, 51, 54, 52, 56], by rfl, ?_, by decide, ?_, by decide⟩
      · intro c hc; revert c; unfold IsDigit; decide
      · rw [hm.1]; decide
    · refine ⟨[57, 50, 50, 51, 51, 55, 50, 48, 51, 54, 56, 53, 52, 55, 55, 53, 56, 48, 56], by rfl, ?_, by decide,
        ?_, by decide⟩
      · intro c hc; revert c; unfold IsDigit; decide
      · rw [hm.1]; decide
  · have hb : (decide (n = t.cast (2 ^ (t.w - 1))) && decide (n < 0)) = false := by
      simp only [Bool.and_eq_false_iff, decide_eq_false_iff_not]; omega
    simp only [hb, Bool.false_and, Bool.false_eq_true, if_false]
    have hneg : n < 0 → - maxVal t ≤ n := by
      intro h
      have hsg : t.signed = true := by
        cases h' : t.signed
        · have : minVal t = 0 := by simp [minVal, h']
          omega
        · rfl
      have hme := ft.min_eq hsg
      have : t.cast (2 ^ (t.w - 1)) = minVal t := by
        rcases t with ⟨w, s⟩; simp only at hsg; subst hsg
        rcases ht with h | h | h | h <;> simp only at h <;> subst h <;> decide
      have : n ≠ minVal t := fun h' => hm ⟨by omega, h⟩
      omega
    have hpos : (if n < 0 then t.cast (-n) else n) = n.natAbs := by
      split
      · rename_i h
        have := hneg h
        rw [ft.cast_id _ (by have := ft.min_le; omega) (by omega)]; omega
      · omega
    rw [hpos]
    have habs : (n.natAbs : Int) ≤ maxVal t := by
      by_cases h : n < 0
      · have := hneg h; omega
      · omega
    have horder : orderOfMagnitude t n.natAbs ≤ (if n < 0 then 18 else 19) := by
      obtain ⟨o1, o2, o3⟩ := orderOfMagnitude_spec t ht n.natAbs (by omega) habs
      have hn64 : maxVal t ≤ if n < 0 then 2 ^ 63 - 1 else 2 ^ 64 - 1 := by
        have : n < 0 → t.signed = true := by
          intro h
          cases h' : t.signed
          · have : minVal t = 0 := by simp [minVal, h']
            omega
          · rfl
        rcases t with ⟨w, s⟩
        rcases ht with h | h | h | h <;> simp only at h <;> subst h <;> cases s <;> split <;>
          first | decide | simp_all
      by_cases hz : n.natAbs = 0
      · rw [o3 (by omega)]; omega
      · have o2' := o2 (by omega)
        by_cases hle : orderOfMagnitude t n.natAbs ≤ (if n < 0 then 18 else 19)
        · exact hle
        · exfalso
          have hpw : (10 : Int) ^ ((if n < 0 then 18 else 19) + 1) ≤ 10 ^ orderOfMagnitude t n.natAbs := by
            exact_mod_cast Nat.pow_le_pow_right (n := 10) (by omega) (by omega)
          split at hn64 <;> rename_i hh <;> simp only [hh, if_true, if_false] at hpw <;> omega
    rw [if_neg (by split at horder <;> rename_i hh <;> simp [hh] <;> omega)]
    have hw : (n.natAbs : Int) ≤ 2 ^ t.w - 1 := by
      have : maxVal t ≤ 2 ^ t.w - 1 := by
        rcases t with ⟨w, s⟩
        rcases ht with h | h | h | h <;> simp only at h <;> subst h <;> cases s <;> decide
      omega
    have htext := printPositive_text t ht n.natAbs hw
    exact ⟨printPositive t.w n.natAbs, by simp, htext.digits, htext.nonempty, htext.value, htext.noLeadingZero⟩

/-- A digit string without superfluous leading zero is no longer than its value allows. -/
theorem length_of_value (body : List UInt8) (hd : ∀ c ∈ body, IsDigit c)
    (hz : body.head? = some 48 → body = [48]) (k : Nat) (hv : digitsValue 0 body < 10 ^ (k + 1)) :
    body.length ≤ k + 1 := by
  match body with
  | [] => simp
  | c :: rest =>
    by_cases h48 : c = 48
    · rw [hz (by simp [h48])]; simp
    · have hc := hd c (by simp)
      have hc' : 49 ≤ c.toNat := by
        unfold IsDigit at hc
        have : c.toNat ≠ 48 := fun h => h48 (UInt8.toNat_inj.mp h)
        omega
      have hr := digitsValue_ge 0 rest (fun c h => hd c (by simp [h])) (by omega)
      have e : digitsValue 0 (c :: rest) = digitsValue (10 * 0 + ((c.toNat : Int) - 48)) rest := rfl
      rw [e, digitsValue_acc] at hv
      have hp : (0:Int) < 10 ^ rest.length := Int.pow_pos (by decide)
      have h1 : (1:Int) * 10 ^ rest.length ≤ (10 * 0 + ((c.toNat : Int) - 48)) * 10 ^ rest.length :=
        Int.mul_le_mul_of_nonneg_right (by omega) (by omega)
      have h2 : (10:Int) ^ rest.length < 10 ^ (k + 1) := by omega
      have h3 : (10:Nat) ^ rest.length < 10 ^ (k + 1) := by exact_mod_cast h2
      have := (Nat.pow_lt_pow_iff_right (by omega : 1 < 10)).mp h3
      simp; omega

/-- **C16.** Printing any value of any integer type and converting the text back returns the same value. -/
theorem c16_print_parse_roundtrip (t : IType) (ht : IsCxxType t) (n : Int) (hn : InRange t n) :
    stringToInteger t (printDecimal t n 0 false false false) = (true, n) := by
  have hmag : (n.natAbs : Int) < 10 ^ 20 := by
    obtain ⟨h1, h2⟩ := hn
    rcases t with ⟨w, s⟩
    rcases ht with h | h | h | h <;> simp only at h <;> subst h <;> cases s <;>
      simp [minVal, maxVal] at h1 h2 <;> omega
  obtain ⟨body, hp, hd, hne, hv, hz⟩ := c16_print_is_decimal t ht n hn false false
  have hl := length_of_value body hd hz 19 (by rw [hv]; exact hmag)
  have hfirst : ∀ c, body.head? = some c → IsDigit c := fun c h => hd c (List.mem_of_head? h)
  have fin : ∀ r : Bool × Int, r.1 = true → r.2 = n → r = (true, n) := by
    rintro ⟨a, b⟩ rfl rfl; rfl
  by_cases hneg : n < 0
  · rw [if_pos hneg] at hp
    rw [hp, (c15_dispatch t).1 _ (by simp)]
    have hsg : t.signed = true := by
      cases h' : t.signed
      · have : minVal t = 0 := by simp [minVal, h']
        have := hn.1; omega
      · rfl
    have key := c15_decimal_exact_partial t ht .minus body (by simp [Sign.text]; omega) (by simp) (fun _ => hsg)
    have hval : signedValue .minus body = n := by simp only [signedValue, hv]; omega
    rw [hval] at key
    have h1 := key.1.mpr ⟨hd, hn⟩
    exact fin _ h1 (key.2 h1)
  · rw [if_neg hneg, List.nil_append] at hp
    rw [hp]
    have hval : signedValue .none body = n := by simp only [signedValue, hv]; omega
    by_cases h0 : body.head? = some 48
    · have hb := hz h0
      rw [hb] at hv
      have : n = 0 := by
        have : digitsValue 0 [48] = 0 := by decide
        omega
      rw [hb, this]; rfl
    · rw [(c15_dispatch t).1 _ h0]
      have key := c15_decimal_exact_partial t ht .none body (by simp [Sign.text]; omega)
        (fun _ => ⟨fun h => by have := hfirst _ h; revert this; unfold IsDigit; decide,
          fun h => by have := hfirst _ h; revert this; unfold IsDigit; decide⟩) (by simp)
      simp only [Sign.text, List.nil_append] at key
      rw [hval] at key
      have h1 := key.1.mpr ⟨hd, hn⟩
      exact fin _ h1 (key.2 h1)

example : stringToInteger ⟨64, true⟩ (printDecimal ⟨64, true⟩ (-9223372036854775808) 0 false false false) =
    (true, -9223372036854775808) :=
  c16_print_parse_roundtrip _ (.inr (.inr (.inr rfl))) _ (by unfold InRange; decide)

/-- A user asking for a right-aligned field of width 8 does not get one for the minimum value: the literal
text is written without padding (the other values are padded). -/
theorem c16_minimum_ignores_padding :
    (printDecimal ⟨8, true⟩ (-127) 8 true false false).length = 8 ∧
    (printDecimal ⟨8, true⟩ (-128) 8 true false false).length = 4 := by
  constructor <;> decide +kernel

end Verif.IntText
