import Verif.Proof.TextFloat3
set_option maxRecDepth 8000
set_option exponentiation.threshold 3000
/-!
# C68: texts are converted to the floating point number that they denote

A finite number of a format is the integer `n` that stands for `n / 2 ^ K` (see `Model/FloatNum.lean`).
-/
namespace Verif.FloatNum
open Verif.Spec.TextFloat

/-- The two floating point types: the format, whether it is wider than 32 bits, the decimals whose power of ten is a
number of the format, and the decimals whose power of ten is finite. -/
def Kind (f : Fmt) (wide : Bool) (exact finite : Nat) : Prop :=
  (f = f32 ∧ wide = false ∧ exact = 10 ∧ finite = 38) ∨ (f = f64 ∧ wide = true ∧ exact = 22 ∧ finite = 308)

private theorem kind_fits {f : Fmt} {wide : Bool} {N M : Nat} (h : Kind f wide N M) : Fits f N := by
  rcases h with ⟨rfl, _, rfl, _⟩ | ⟨rfl, _, rfl, _⟩
  · exact fits32
  · exact fits64

private theorem kind_powers {f : Fmt} {wide : Bool} {N M : Nat} (h : Kind f wide N M) :
    ∀ n, n < M → bad f (power f (n + 1)) = false := by
  rcases h with ⟨rfl, _, _, rfl⟩ | ⟨rfl, _, _, rfl⟩
  · exact powers32
  · exact powers64

private theorem kind_lit {f : Fmt} {wide : Bool} {N M : Nat} (h : Kind f wide N M) :
    ∀ s, s = 8 ∨ s = 4 ∨ s = 2 → literal f false s = .fin ((5 ^ s * 2 ^ s * 2 ^ f.K : Nat) : Int) := by
  rcases h with ⟨rfl, _⟩ | ⟨rfl, _⟩
  · exact lit32
  · exact lit64

/-- A text of decimal digits, with or without a sign, is converted exactly to the number that it denotes, when the number
has no more binary digits than the significand. -/
theorem c68_integer (f : Fmt) (wide : Bool) (N M : Nat) (h : Kind f wide N M) (sg : List Char) (s : Int)
    (hs : Sign sg s) (ds : List Nat) (hd : Digits ds) (hl : ds.length ≤ 998) (hv : number ds < 2 ^ f.p) :
    stringToFloat f wide (sg ++ text ds) = (true, .fin (s * (number ds * 2 ^ f.K))) := by
  obtain ⟨room, h1, h2, h3⟩ := start f wide sg s hs (text ds) (by
    intro _
    have := head_ok ds hd [] (by intro _; decide)
    rwa [List.append_nil] at this)
  rw [h3, whole (kind_fits h) wide room ds hd (by omega) hv]
  simp only [signed_fin sg s hs]
  push_cast
  rfl

/-- A text with `n` decimals is converted to a number that is within `(3 n + V + 3) / 2 ^ p` of the number that it
denotes, where `V` is the integral part: for every text of up to 10 decimals in `float32` and 22 in `float64`. -/
theorem c68_decimal (f : Fmt) (wide : Bool) (N M : Nat) (h : Kind f wide N M) (sg : List Char) (s : Int)
    (hs : Sign sg s) (ds fs : List Nat) (hd : Digits ds) (hf : Digits fs) (hl : ds.length ≤ 900)
    (hv : number ds < 2 ^ f.p) (hn : fs.length ≤ N) :
    ∃ y : Int, stringToFloat f wide (sg ++ (text ds ++ '.' :: text fs)) = (true, .fin (s * y)) ∧
      2 ^ f.p * (y * 10 ^ fs.length - (number ds * 10 ^ fs.length + number fs : Nat) * 2 ^ f.K).natAbs
        ≤ (3 * fs.length + number ds + 3) * (2 ^ f.K * 10 ^ fs.length) := by
  have hN : N ≤ 22 := by rcases h with ⟨_, _, rfl, _⟩ | ⟨_, _, rfl, _⟩ <;> omega
  obtain ⟨room, h1, h2, h3⟩ := start f wide sg s hs (text ds ++ '.' :: text fs) (by
    intro _
    exact head_ok ds hd _ (by intro _; simp))
  obtain ⟨R, hR, hb1, hb2⟩ := decimals (kind_fits h) wide room ds fs hd hf (by omega) hv hn
  refine ⟨(R : Int), ?_, ?_⟩
  · rw [h3, hR]
    simp only [signed_fin sg s hs]
  · have e1 : (R : Int) * 10 ^ fs.length = ((10 ^ fs.length * R : Nat) : Int) := by
      push_cast; exact Int.mul_comm _ _
    have e2 : ((number ds * 10 ^ fs.length + number fs : Nat) : Int) * 2 ^ f.K =
        (((number ds * 10 ^ fs.length + number fs) * 2 ^ f.K : Nat) : Int) := by push_cast; rfl
    rw [e1, e2]
    have e3 : (3 * fs.length + number ds + 3) * 2 ^ f.K * 10 ^ fs.length =
        (3 * fs.length + number ds + 3) * (2 ^ f.K * 10 ^ fs.length) := Nat.mul_assoc _ _ _
    rw [e3] at hb1 hb2
    generalize (3 * fs.length + number ds + 3) * (2 ^ f.K * 10 ^ fs.length) = E at hb1 hb2 ⊢
    generalize (number ds * 10 ^ fs.length + number fs) * 2 ^ f.K = B at hb1 hb2 ⊢
    generalize 10 ^ fs.length * R = A at hb1 hb2 ⊢
    rcases Nat.le_total A B with hle | hle
    · rw [show ((A : Int) - (B : Int)).natAbs = B - A by omega, Nat.mul_sub]; omega
    · rw [show ((A : Int) - (B : Int)).natAbs = A - B by omega, Nat.mul_sub]; omega

/-- A text of digits with an exponent, of up to 15, is converted exactly when the number that it denotes has no more
binary digits than the significand. -/
theorem c68_exponent (f : Fmt) (wide : Bool) (N M : Nat) (h : Kind f wide N M) (sg : List Char) (s : Int)
    (hs : Sign sg s) (ds es : List Nat) (hd : Digits ds) (he : Digits es) (c : Char) (hc : c = 'E' ∨ c = 'e')
    (esg : List Char) (hes : Sign esg 1) (hl : ds.length + es.length ≤ 990) (hk : number es ≤ 15)
    (hv : number ds * 10 ^ number es < 2 ^ f.p) :
    stringToFloat f wide (sg ++ (text ds ++ c :: (esg ++ text es))) =
      (true, .fin (s * (number ds * 10 ^ number es * 2 ^ f.K))) := by
  obtain ⟨room, h1, h2, h3⟩ := start f wide sg s hs (text ds ++ c :: (esg ++ text es)) (by
    intro _
    exact head_ok ds hd _ (by intro _; rcases hc with rfl | rfl <;> simp))
  rw [h3, whole_exp (kind_fits h) wide room ds es hd he (by omega) (by omega) (kind_lit h) hv c hc esg hes]
  simp only [signed_fin sg s hs]
  push_cast
  rfl

/-- The numbers whose exponent `AddExponent` can apply: below 512 in `float64` and below 64 in `float32`. -/
def exponents (wide : Bool) : Nat := if wide then 512 else 64

private theorem kind_rel {f : Fmt} {wide : Bool} {N M : Nat} (h : Kind f wide N M) (neg : Bool) {v k : Nat}
    (hr : InRange f neg v k) (hk : k < exponents wide) :
    ∃ y : Nat, addExponent f wide (.fin ((v * 2 ^ f.K : Nat) : Int)) k (!neg) = .fin (y : Int) ∧
      Rel (2 ^ f.p) 25 y (v * 2 ^ f.K * up neg k) (dn neg k) := by
  have hf := kind_fits h
  rcases h with ⟨rfl, rfl, rfl, _⟩ | ⟨rfl, rfl, rfl, _⟩
  · exact add_exponent_rel hf false neg (by decide) tame32 hr hk (lits32 neg)
  · exact add_exponent_rel hf true neg (by decide) tame64 hr hk (lits64 neg)

/-- A text of digits with a positive exponent is converted to the number that it denotes up to a factor between
`(1 - 2 ^ -p) ^ 25` and `(1 + 2 ^ -p) ^ 25`, when the number is below a quarter of the largest of the format. -/
theorem c68_positive_exponent (f : Fmt) (wide : Bool) (N M : Nat) (h : Kind f wide N M) (sg : List Char) (s : Int)
    (hs : Sign sg s) (ds es : List Nat) (hd : Digits ds) (he : Digits es) (c : Char) (hc : c = 'E' ∨ c = 'e')
    (esg : List Char) (hes : Sign esg 1) (hl : ds.length + es.length ≤ 990) (hk : number es < exponents wide)
    (h0 : 0 < number ds) (hv : number ds < 2 ^ f.p) (hr : number ds * 2 ^ f.K * 10 ^ number es ≤ 2 ^ (f.top - 2)) :
    ∃ y : Nat, stringToFloat f wide (sg ++ (text ds ++ c :: (esg ++ text es))) = (true, .fin (s * y)) ∧
      (2 ^ f.p - 1) ^ 25 * (number ds * 2 ^ f.K * 10 ^ number es) ≤ (2 ^ f.p) ^ 25 * y ∧
      (2 ^ f.p) ^ 25 * y ≤ (2 ^ f.p + 1) ^ 25 * (number ds * 2 ^ f.K * 10 ^ number es) := by
  have hin : InRange f false (number ds) (number es) := by
    intro m hm
    simp only [up, dn, Bool.false_eq_true, if_false, Nat.mul_one, Nat.one_mul]
    have hm' : 10 ^ m ≤ 10 ^ number es := Nat.pow_le_pow_right (by omega) hm
    refine ⟨?_, Nat.le_trans (Nat.mul_le_mul_left _ hm') hr⟩
    have h1 : 2 ^ f.p ≤ 2 ^ f.K := Nat.pow_le_pow_right (by omega) (by have := (kind_fits h).kp; omega)
    calc 2 ^ f.p ≤ 2 ^ f.K := h1
      _ ≤ number ds * 2 ^ f.K := Nat.le_mul_of_pos_left _ h0
      _ ≤ _ := Nat.le_mul_of_pos_right _ (Nat.pow_pos (by omega))
  obtain ⟨y, hy, h4, h5⟩ := kind_rel h false hin hk
  obtain ⟨room, h1, h2, h3⟩ := start f wide sg s hs (text ds ++ c :: (esg ++ text es)) (by
    intro _
    exact head_ok ds hd _ (by intro _; rcases hc with rfl | rfl <;> simp))
  refine ⟨y, ?_, by simpa [up, dn] using h4, by simpa [up, dn] using h5⟩
  have hk' : number es < 512 := by unfold exponents at hk; split at hk <;> omega
  rw [h3, exp_text (kind_fits h) wide room ds es hd he (by omega) hk' hv c hc esg 1 hes y (by simpa using hy)]
  simp only [signed_fin sg s hs]

/-- A text of digits with a negative exponent is converted to the number that it denotes up to a factor between
`(1 - 2 ^ -p) ^ 25` and `(1 + 2 ^ -p) ^ 25`, when the number is at least twice the smallest number that is not
subnormal. -/
theorem c68_negative_exponent (f : Fmt) (wide : Bool) (N M : Nat) (h : Kind f wide N M) (sg : List Char) (s : Int)
    (hs : Sign sg s) (ds es : List Nat) (hd : Digits ds) (he : Digits es) (c : Char) (hc : c = 'E' ∨ c = 'e')
    (hl : ds.length + es.length ≤ 990) (hk : number es < exponents wide)
    (hv : number ds < 2 ^ f.p) (hr : 2 ^ f.p * 10 ^ number es ≤ number ds * 2 ^ f.K) :
    ∃ y : Nat, stringToFloat f wide (sg ++ (text ds ++ c :: (['-'] ++ text es))) = (true, .fin (s * y)) ∧
      (2 ^ f.p - 1) ^ 25 * (number ds * 2 ^ f.K) ≤ (2 ^ f.p) ^ 25 * (y * 10 ^ number es) ∧
      (2 ^ f.p) ^ 25 * (y * 10 ^ number es) ≤ (2 ^ f.p + 1) ^ 25 * (number ds * 2 ^ f.K) := by
  have hin : InRange f true (number ds) (number es) := by
    intro m hm
    simp only [up, dn, if_true, Nat.mul_one]
    have hm' : 10 ^ m ≤ 10 ^ number es := Nat.pow_le_pow_right (by omega) hm
    refine ⟨Nat.le_trans (Nat.mul_le_mul_left _ hm') hr, ?_⟩
    have h1 : number ds * 2 ^ f.K ≤ 2 ^ f.p * 2 ^ f.K := Nat.mul_le_mul_right _ (by omega)
    have h2 : 2 ^ f.p * 2 ^ f.K ≤ 2 ^ (f.top - 2) := by
      rw [← Nat.pow_add]
      exact Nat.pow_le_pow_right (by omega) (by have := (kind_fits h).top; omega)
    exact Nat.le_trans (Nat.le_trans h1 h2) (Nat.le_mul_of_pos_left _ (Nat.pow_pos (by omega)))
  obtain ⟨y, hy, h4, h5⟩ := kind_rel h true hin hk
  obtain ⟨room, h1, h2, h3⟩ := start f wide sg s hs (text ds ++ c :: (['-'] ++ text es)) (by
    intro _
    exact head_ok ds hd _ (by intro _; rcases hc with rfl | rfl <;> simp))
  refine ⟨y, ?_, by simpa [up, dn] using h4, by simpa [up, dn] using h5⟩
  have hk' : number es < 512 := by unfold exponents at hk; split at hk <;> omega
  rw [h3, exp_text (kind_fits h) wide room ds es hd he (by omega) hk' hv c hc ['-'] (-1) Sign.minus y (by simpa using hy)]
  simp only [signed_fin sg s hs]

/-- The hypotheses are met: `314E-2` as `float32`, and `-7e-200` as `float64`. -/
example : ∃ y : Nat, stringToFloat f32 false "314E-2".toList = (true, .fin (1 * y)) ∧
    (2 ^ 24 - 1) ^ 25 * (314 * 2 ^ f32.K) ≤ (2 ^ 24) ^ 25 * (y * 10 ^ 2) ∧
    (2 ^ 24) ^ 25 * (y * 10 ^ 2) ≤ (2 ^ 24 + 1) ^ 25 * (314 * 2 ^ f32.K) :=
  c68_negative_exponent f32 false 10 38 (Or.inl ⟨rfl, rfl, rfl, rfl⟩) [] 1 .none [3, 1, 4] [2] (by simp [Digits])
    (by simp [Digits]) 'E' (Or.inl rfl) (by simp) (by decide) (by decide) (by decide +kernel)
example : ∃ y : Nat, stringToFloat f64 true "-7e-200".toList = (true, .fin (-1 * y)) ∧
    (2 ^ 53 - 1) ^ 25 * (7 * 2 ^ f64.K) ≤ (2 ^ 53) ^ 25 * (y * 10 ^ 200) ∧
    (2 ^ 53) ^ 25 * (y * 10 ^ 200) ≤ (2 ^ 53 + 1) ^ 25 * (7 * 2 ^ f64.K) :=
  c68_negative_exponent f64 true 22 308 (Or.inr ⟨rfl, rfl, rfl, rfl⟩) ['-'] (-1) .minus [7] [2, 0, 0] (by simp [Digits])
    (by simp [Digits]) 'e' (Or.inr rfl) (by simp) (by decide) (by decide) (by decide +kernel)

/-- Any digits followed by a character that is not a digit, a dot or the letter of the exponent: refused, whatever
follows. -/
theorem c68_refused (f : Fmt) (wide : Bool) (sg : List Char) (s : Int) (hs : Sign sg s) (ds : List Nat) (hd : Digits ds)
    (hl : ds.length ≤ 998) (c : Char) (rest : List Char) (hc : ¬ (48 ≤ c.toNat ∧ c.toNat ≤ 57))
    (hc' : c ∉ ['\x00', '.', 'E', 'e']) (hc2 : sg = [] → ds = [] → c ≠ '+' ∧ c ≠ '-') :
    (stringToFloat f wide (sg ++ (text ds ++ c :: rest))).1 = false := by
  simp only [List.mem_cons, List.not_mem_nil, or_false, not_or] at hc'
  obtain ⟨room, h1, h2, h3⟩ := start f wide sg s hs (text ds ++ c :: rest) (by
    intro h; exact head_ok ds hd _ (by intro h'; simpa using hc2 h h'))
  rw [h3]
  exact refused_int f wide room ds hd c rest (by omega) (digit?_none c hc) (by simp [hc']) hc'.1

/-- Any digits, a dot, decimals whose power of ten is finite, and a character that is not a digit or the letter of the
exponent: refused, whatever follows. -/
theorem c68_refused_decimals (f : Fmt) (wide : Bool) (N M : Nat) (h : Kind f wide N M) (sg : List Char) (s : Int)
    (hs : Sign sg s) (ds fs : List Nat) (hd : Digits ds) (hf : Digits fs) (hl : ds.length + fs.length ≤ 990)
    (hM : fs.length ≤ M) (c : Char) (rest : List Char) (hc : ¬ (48 ≤ c.toNat ∧ c.toNat ≤ 57))
    (hc' : c ∉ ['\x00', 'E', 'e']) :
    (stringToFloat f wide (sg ++ (text ds ++ '.' :: (text fs ++ c :: rest)))).1 = false := by
  simp only [List.mem_cons, List.not_mem_nil, or_false, not_or] at hc'
  obtain ⟨room, h1, h2, h3⟩ := start f wide sg s hs (text ds ++ '.' :: (text fs ++ c :: rest)) (by
    intro h; exact head_ok ds hd _ (by intro h'; simp))
  rw [h3]
  exact refused_dec f M (kind_powers h) wide room ds fs hd hf c rest (by omega) hM (digit?_none c hc)
    (by simp [hc']) hc'.1

/-- An exponent of 512 or more, or one that is followed by a character that is not a digit: refused, whatever follows. -/
theorem c68_refused_exponent (f : Fmt) (wide : Bool) (N M : Nat) (h : Kind f wide N M) (sg : List Char) (s : Int)
    (hs : Sign sg s) (ds es : List Nat) (fs : Option (List Nat)) (hd : Digits ds) (he : Digits es)
    (hf : ∀ l, fs = some l → Digits l ∧ l.length ≤ M) 
    (hl : (plain ds fs).length + es.length ≤ 990) (c : Char) (hc : c = 'E' ∨ c = 'e') (esg : List Char) (es' : Int)
    (hes : Sign esg es') (rest : List Char)
    (hb : 512 ≤ number es ∨ ∃ c' rest', rest = c' :: rest' ∧ ¬ (48 ≤ c'.toNat ∧ c'.toNat ≤ 57) ∧ c' ≠ '\x00' ∧
      (esg = [] → es = [] → c' ≠ '+' ∧ c' ≠ '-')) :
    (stringToFloat f wide (sg ++ (plain ds fs ++ c :: (esg ++ (text es ++ rest))))).1 = false := by
  obtain ⟨room, h1, h2, h3⟩ := start f wide sg s hs (plain ds fs ++ c :: (esg ++ (text es ++ rest))) (by
    intro _
    cases fs with
    | none => exact head_ok ds hd _ (by intro _; rcases hc with rfl | rfl <;> simp)
    | some l =>
      rw [plain, List.append_assoc]
      exact head_ok ds hd _ (by intro _; simp))
  rw [h3]
  refine refused_exp f M (kind_powers h) wide room ds fs hd hf c hc esg es' hes es he rest (by omega) ?_
  rcases hb with hb | ⟨c', rest', g1, g2, g3, g4⟩
  · exact Or.inl hb
  · exact Or.inr ⟨c', rest', g1, digit?_none c' g2, g3, g4, by omega⟩

/-- The empty text, a sign, a dot and the letter of the exponent alone are accepted as zero. -/
theorem c68_no_digits_fails : ∀ t ∈ [[], ['-'], ['+'], ['.'], ['E'], ['-', '.', 'e', '+']],
    stringToFloat f32 false t = (true, .fin 0) ∧ stringToFloat f64 true t = (true, .fin 0) := by
  decide +kernel

/-- In `float32` an exponent of 64 or more counts as 63: `1000…0E-70` (26 zeros) is converted to the same number as
`1000…0E-63`, ten million times the number that it denotes. -/
theorem c68_exponent_fails :
    stringToFloat f32 false ("100000000000000000000000000E-70".toList) =
      stringToFloat f32 false ("100000000000000000000000000E-63".toList) ∧
    (stringToFloat f32 false ("100000000000000000000000000E-70".toList)).1 = true := by
  decide +kernel

/-- After 38 decimals (`float32`) any text is accepted. -/
theorem c68_decimals_fails :
    (stringToFloat f32 false (['0', '.'] ++ List.replicate 39 '1' ++ ['x', 'y', 'z'])).1 = true := by
  decide +kernel

/-- After 1000 characters any text is accepted. -/
theorem c68_length_fails :
    stringToFloat f32 false (List.replicate 1000 '0' ++ ['x', 'y', 'z']) = (true, .fin 0) := by
  decide +kernel

/-- The hypotheses are met: `-12.75` in `float32`, `3E4` in `float64`, and what is refused. -/
example : stringToFloat f32 false ("-12.75".toList) = (true, .fin (-1275 * 2 ^ 149 / 100)) ∧
    stringToFloat f64 true ("3E4".toList) = (true, .fin (30000 * 2 ^ 1074)) ∧
    (stringToFloat f32 false ("12a".toList)).1 = false ∧ (stringToFloat f32 false ("1.2.3".toList)).1 = false ∧
    (stringToFloat f64 true ("1E512".toList)).1 = false := by
  decide +kernel

example : Sign ['-'] (-1) ∧ Digits [1, 2] ∧ text [1, 2] = "12".toList ∧ number [1, 2] = 12 ∧ number [1, 2] < 2 ^ f32.p ∧
    Kind f32 false 10 38 :=
  ⟨.minus, by unfold Digits; decide, by decide, by decide, by decide, Or.inl ⟨rfl, rfl, rfl, rfl⟩⟩

end Verif.FloatNum
