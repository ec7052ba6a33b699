import Verif.Proof.IntRadix
import Verif.Props.IntText

namespace Verif.IntText
open Verif.Spec.IntText

/-- Base of a notation and the text that announces it. -/
def Radix.base : Radix → Nat
  | .hex => 16
  | .oct => 8
  | .bin => 2
def Radix.header : Radix → List UInt8
  | .hex => [48, 120]   -- "0x"
  | .oct => [48, 111]   -- "0o"
  | .bin => [48, 98]    -- "0b"
/-- The most digits a type can need. -/
def Radix.maxDigits (r : Radix) (t : IType) : Nat := (t.w + r.bits - 1) / r.bits

private theorem base_eq (r : Radix) : r.base = 2 ^ r.bits := by cases r <;> rfl

private theorem cxx_le (t : IType) (ht : IsCxxType t) : t.w ≤ 64 := by
  rcases ht with h | h | h | h <;> omega

private theorem valueIn_fit (r : Radix) (xs : List UInt8) (w : Nat) (hd : ∀ c ∈ xs, IsDigitOf r.base c)
    (h : r.bits * xs.length ≤ w) : valueIn r.base xs < 2 ^ w := by
  have h1 := valueIn_lt r.base xs hd
  rw [base_eq, ← Nat.pow_mul] at h1
  have : 2 ^ (r.bits * xs.length) ≤ 2 ^ w := Nat.pow_le_pow_right (by omega) h
  rw [base_eq]; omega

/-- **C49.** Conversion of a text announced by `0x`, `0o` or `0b`: it succeeds exactly when all the characters
are digits of the base, there are no more of them than the type can need, and the value fits in the bits of the
type; the number stored is then that value as a bit pattern of the type (so `0xFF` is -1 for `int8`). -/
theorem c49_parse (r : Radix) (t : IType) (ht : IsCxxType t) (xs : List UInt8) :
    ((stringToInteger t (r.header ++ xs)).1 = true ↔
      (∀ c ∈ xs, IsDigitOf r.base c) ∧ xs.length ≤ r.maxDigits t ∧ valueIn r.base xs < 2 ^ t.w) ∧
    ((stringToInteger t (r.header ++ xs)).1 = true →
      InRange t (stringToInteger t (r.header ++ xs)).2 ∧
      (stringToInteger t (r.header ++ xs)).2 % 2 ^ t.w = valueIn r.base xs) := by
  have hw := cxx_le t ht
  have hw0 : 8 ≤ t.w := by rcases ht with h | h | h | h <;> omega
  have hrange : ∀ x : Int, InRange t (t.cast x) := by
    obtain ⟨w, s⟩ := t
    intro x
    rcases ht with h | h | h | h <;> simp only at h <;> subst h <;> cases s <;>
      simp [InRange, minVal, maxVal, IType.cast, Int.bmod_def] <;> omega
  have hfin : ∀ v : Nat, v < 2 ^ t.w → t.cast (v : Int) % 2 ^ t.w = v := by
    intro v hv
    rw [cast_emod]
    refine Int.emod_eq_of_lt (by omega) ?_
    have : ((2 ^ t.w : Nat) : Int) = (2 : Int) ^ t.w := by simp
    omega
  have h0 : (0 : Int) = t.cast ((0 : Nat) : Int) := by
    obtain ⟨w, s⟩ := t
    rcases ht with h | h | h | h <;> simp only at h <;> subst h <;> cases s <;> decide
  cases r with
  | hex =>
    have e : stringToInteger t (Radix.hex.header ++ xs) = gl t 4 hexDigitOf (fun s => decide (s > t.w)) xs 0 0 := by
      rw [← hexLoop_eq t hw 1000 xs 0 0 (by omega) (by omega)]; rfl
    rw [e]
    have key := gl_spec t 4 hexDigitOf (fun s => decide (s > t.w))
      (by intro c d h
          rw [hexDigitOf_eq] at h
          cases hc : hexDigit c with
          | none => rw [hc] at h; exact absurd h (by simp)
          | some x => rw [hc] at h; simpa using h) xs 0 0 0 (by simp) h0
    have hval : valAcc (2 ^ 4) 0 xs = valueIn Radix.hex.base xs := rfl
    rw [hval] at key
    have hiff : ((∀ c ∈ xs, (hexDigitOf c).isSome) ∧
        ∀ j, 1 ≤ j → j ≤ xs.length → (decide (0 + 4 * j > t.w)) = false) ↔
        (∀ c ∈ xs, IsDigitOf Radix.hex.base c) ∧ xs.length ≤ Radix.hex.maxDigits t ∧
          valueIn Radix.hex.base xs < 2 ^ t.w := by
      have hm : Radix.hex.maxDigits t = t.w / 4 := by
        rcases ht with h | h | h | h <;> simp [Radix.maxDigits, Radix.bits, h]
      constructor
      · rintro ⟨h1, h2⟩
        have hd : ∀ c ∈ xs, IsDigitOf Radix.hex.base c := fun c hc => (hexDigitOf_isSome c).mp (h1 c hc)
        have hl : 4 * xs.length ≤ t.w := by
          by_cases hx : xs.length = 0
          · omega
          · have := h2 xs.length (by omega) (by omega)
            simp only [decide_eq_false_iff_not] at this; omega
        exact ⟨hd, by rw [hm]; omega, valueIn_fit .hex xs t.w hd hl⟩
      · rintro ⟨h1, h2, -⟩
        refine ⟨fun c hc => (hexDigitOf_isSome c).mpr (h1 c hc), fun j hj1 hj2 => ?_⟩
        rw [hm] at h2
        simp only [decide_eq_false_iff_not]; omega
    refine ⟨key.1.trans hiff, fun h => ?_⟩
    rw [key.2 h]
    exact ⟨hrange _, hfin _ ((hiff.mp (key.1.mp h)).2.2)⟩
  | bin =>
    have e : stringToInteger t (Radix.bin.header ++ xs) =
        gl t 1 (digLow (1 : Nat)) (fun s => decide (s > t.w)) xs 0 0 := by
      rw [← binLoop_eq t hw 1000 xs 0 0 (by omega) (by omega)]; rfl
    rw [e]
    have key := gl_spec t 1 (digLow (1 : Nat)) (fun s => decide (s > t.w))
      (by intro c d h
          obtain ⟨a, b, -⟩ := digLow_some 1 (by omega) c d h
          rw [a, Option.getD_some]; omega) xs 0 0 0 (by simp) h0
    have hval : valAcc (2 ^ 1) 0 xs = valueIn Radix.bin.base xs := rfl
    rw [hval] at key
    have hiff : ((∀ c ∈ xs, (digLow (1 : Nat) c).isSome) ∧
        ∀ j, 1 ≤ j → j ≤ xs.length → (decide (0 + 1 * j > t.w)) = false) ↔
        (∀ c ∈ xs, IsDigitOf Radix.bin.base c) ∧ xs.length ≤ Radix.bin.maxDigits t ∧
          valueIn Radix.bin.base xs < 2 ^ t.w := by
      have hm : Radix.bin.maxDigits t = t.w := by
        rcases ht with h | h | h | h <;> simp [Radix.maxDigits, Radix.bits, h]
      constructor
      · rintro ⟨h1, h2⟩
        have hd : ∀ c ∈ xs, IsDigitOf Radix.bin.base c :=
          fun c hc => (digLow_isSome 1 (by omega) c).mp (h1 c hc)
        have hl : 1 * xs.length ≤ t.w := by
          by_cases hx : xs.length = 0
          · omega
          · have := h2 xs.length (by omega) (by omega)
            simp only [decide_eq_false_iff_not] at this; omega
        exact ⟨hd, by rw [hm]; omega, valueIn_fit .bin xs t.w hd hl⟩
      · rintro ⟨h1, h2, -⟩
        refine ⟨fun c hc => (digLow_isSome 1 (by omega) c).mpr (h1 c hc), fun j hj1 hj2 => ?_⟩
        rw [hm] at h2
        simp only [decide_eq_false_iff_not]; omega
    refine ⟨key.1.trans hiff, fun h => ?_⟩
    rw [key.2 h]
    exact ⟨hrange _, hfin _ ((hiff.mp (key.1.mp h)).2.2)⟩
  | oct =>
    have e : stringToInteger t (Radix.oct.header ++ xs) =
        gl t 3 (digLow (7 : Nat)) (octBad t (newDigitOf (xs.headD 0) 48)) xs 0 0 := by
      rw [← octLoop_eq t hw _ 1000 xs 0 0 (by omega) (by omega)]; rfl
    rw [e]
    have key := gl_spec t 3 (digLow (7 : Nat)) (octBad t (newDigitOf (xs.headD 0) 48))
      (by intro c d h
          obtain ⟨a, b, -⟩ := digLow_some 7 (by omega) c d h
          rw [a, Option.getD_some]; omega) xs 0 0 0 (by simp) h0
    have hval : valAcc (2 ^ 3) 0 xs = valueIn Radix.oct.base xs := rfl
    rw [hval] at key
    have hiff : ((∀ c ∈ xs, (digLow (7 : Nat) c).isSome) ∧
        ∀ j, 1 ≤ j → j ≤ xs.length → octBad t (newDigitOf (xs.headD 0) 48) (0 + 3 * j) = false) ↔
        (∀ c ∈ xs, IsDigitOf Radix.oct.base c) ∧ xs.length ≤ Radix.oct.maxDigits t ∧
          valueIn Radix.oct.base xs < 2 ^ t.w := by
      have hdig : (∀ c ∈ xs, (digLow (7 : Nat) c).isSome) ↔ (∀ c ∈ xs, IsDigitOf Radix.oct.base c) :=
        ⟨fun h c hc => (digLow_isSome 7 (by omega) c).mp (h c hc),
         fun h c hc => (digLow_isSome 7 (by omega) c).mpr (h c hc)⟩
      rw [hdig]
      refine and_congr_right (fun hd => ?_)
      cases xs with
      | nil =>
        refine ⟨fun _ => ⟨by simp, by simp only [valueIn, List.foldl_nil]; exact Nat.pow_pos (by omega)⟩, fun _ j h1 h2 => ?_⟩
        simp at h2; omega
      | cons c cs =>
        obtain ⟨d, hd1, hd2⟩ := hd c (by simp)
        have hf : newDigitOf c 48 = d := by
          have h := (digLow_isSome 7 (by omega) c).mpr ⟨d, hd1, hd2⟩
          obtain ⟨x, hx⟩ := Option.isSome_iff_exists.mp h
          obtain ⟨a, b, _⟩ := digLow_some 7 (by omega) c x hx
          have hx' : newDigitOf c 48 = x := by
            unfold digLow at hx; simp only at hx
            split at hx
            · exact absurd hx (by simp)
            · simpa using hx
          rw [a] at hd1
          simp only [Option.some.injEq] at hd1
          omega
        have hv : valueIn Radix.oct.base (c :: cs) = d * 8 ^ cs.length + valueIn 8 cs := by
          rw [valueIn_cons, hd1]; rfl
        have hcs := valueIn_lt 8 cs (fun c hc => hd c (by simp [hc]))
        rw [hv]
        simp only [List.headD_cons, hf, octBad, decide_eq_false_iff_not, List.length_cons]
        generalize valueIn 8 cs = v at hcs
        -- only the last digit can be refused
        have hsmall : ∀ m, cs.length ≤ m → 8 ^ cs.length ≤ 8 ^ m := fun m h => Nat.pow_le_pow_right (by omega) h
        have hbound : ∀ m, cs.length < m → d * 8 ^ cs.length + v < 8 ^ m := by
          intro m hm
          have h1 : 8 ^ (cs.length + 1) ≤ 8 ^ m := Nat.pow_le_pow_right (by omega) hm
          have h2 : (d + 1) * 8 ^ cs.length ≤ 8 * 8 ^ cs.length := Nat.mul_le_mul_right _ hd2
          rw [Nat.pow_succ] at h1
          rw [Nat.add_mul] at h2
          omega
        have fin : ∀ (w m q : Nat), t.w = w → Radix.oct.maxDigits t = m + 1 → 3 * m < w → w ≤ 3 * (m + 1) →
            3 * (m + 1) ≤ w + 2 → 2 ^ w = (q + 1) * 8 ^ m →
            (∀ x : Nat, (3 * (m + 1) = w + 1 ∧ (x : Int) > 3 ∨ 3 * (m + 1) = w + 2 ∧ (x : Int) > 1) ↔ x > q) →
            ((∀ (j : Nat), 1 ≤ j → j ≤ cs.length + 1 →
              ¬(0 + 3 * j = t.w + 1 ∧ (d : Int) > 3 ∨ 0 + 3 * j = t.w + 2 ∧ (d : Int) > 1 ∨ 0 + 3 * j > t.w + 2)) ↔
            cs.length + 1 ≤ Radix.oct.maxDigits t ∧ d * 8 ^ cs.length + v < 2 ^ t.w) := by
          intro w m q hwe hme ha hb hc' hq hx
          rw [hme, hwe]
          constructor
          · intro h
            have hlen : cs.length ≤ m := by
              by_cases hl : cs.length ≤ m
              · exact hl
              · exact absurd (.inr (.inr (by omega))) (h (m + 2) (by omega) (by omega))
            refine ⟨by omega, ?_⟩
            by_cases hlm : cs.length = m
            · have h1 := h (m + 1) (by omega) (by omega)
              have hdq : ¬ (d > q) := fun hgt => by
                rcases (hx d).mpr hgt with h' | h'
                · exact h1 (.inl ⟨by omega, h'.2⟩)
                · exact h1 (.inr (.inl ⟨by omega, h'.2⟩))
              have : (d + 1) * 8 ^ m ≤ (q + 1) * 8 ^ m := Nat.mul_le_mul_right _ (by omega)
              rw [Nat.add_mul] at this
              rw [hlm] at hcs ⊢
              omega
            · have h1 := hbound m (by omega)
              have h2 : 1 * 8 ^ m ≤ (q + 1) * 8 ^ m := Nat.mul_le_mul_right _ (by omega)
              omega
          · rintro ⟨h1, h2⟩ j hj1 hj2
            by_cases hjm : j = m + 1
            · subst hjm
              have hlm : cs.length = m := by omega
              rw [hlm] at h2
              have hdq : ¬ (d > q) := fun hgt => by
                have : (q + 1) * 8 ^ m ≤ d * 8 ^ m := Nat.mul_le_mul_right _ hgt
                omega
              have hno := fun h' => hdq ((hx d).mp h')
              rintro (h' | h' | h')
              · exact hno (.inl ⟨by omega, h'.2⟩)
              · exact hno (.inr ⟨by omega, h'.2⟩)
              · omega
            · omega
        rcases ht with h | h | h | h
        · exact fin 8 2 3 h (by simp [Radix.maxDigits, Radix.bits, h]) (by omega) (by omega) (by omega)
            (by decide) (by intro x; omega)
        · exact fin 16 5 1 h (by simp [Radix.maxDigits, Radix.bits, h]) (by omega) (by omega) (by omega)
            (by decide) (by intro x; omega)
        · exact fin 32 10 3 h (by simp [Radix.maxDigits, Radix.bits, h]) (by omega) (by omega) (by omega)
            (by decide) (by intro x; omega)
        · exact fin 64 21 1 h (by simp [Radix.maxDigits, Radix.bits, h]) (by omega) (by omega) (by omega)
            (by decide) (by intro x; omega)
    refine ⟨key.1.trans hiff, fun h => ?_⟩
    rw [key.2 h]
    exact ⟨hrange _, hfin _ ((hiff.mp (key.1.mp h)).2.2)⟩

/-- "0o377" is -1 for `int8`; "0o400" does not fit. -/
example : (stringToInteger ⟨8, true⟩ (Radix.oct.header ++ [51, 55, 55])).2 = -1 ∧
    (stringToInteger ⟨8, true⟩ (Radix.oct.header ++ [52, 48, 48])).1 = false := by decide

/-! ## Printing -/

theorem size_facts (r : Radix) (t : IType) (ht : IsCxxType t) (n : Int) (hn : InRange t n) :
    1 ≤ numberOfDigits r t n ∧ numberOfDigits r t n ≤ 64 ∧ r.bits * numberOfDigits r t n ≤ 66 := by
  obtain ⟨h1, -, -, h4⟩ := numberOfDigits_spec r t ht n hn
  have hw := cxx_le t ht
  have hk : 1 ≤ r.bits ∧ (r.bits = 1 ∨ r.bits = 3 ∨ r.bits = 4) := by cases r <;> simp [Radix.bits]
  have e : r.bits * (numberOfDigits r t n - 1) + r.bits = r.bits * numberOfDigits r t n := by
    rw [Nat.mul_sub]; have : r.bits * 1 ≤ r.bits * numberOfDigits r t n := Nat.mul_le_mul_left _ h1; omega
  refine ⟨h1, ?_, ?_⟩
  · have := Nat.mul_le_mul_right (numberOfDigits r t n - 1) hk.1
    omega
  · rcases hk.2 with h | h | h <;> rw [h] at h4 e ⊢ <;> omega

theorem digits_text (r : Radix) (t : IType) (ht : IsCxxType t) (n : Int) (hn : InRange t n) (nd : Nat)
    (h1 : numberOfDigits r t n ≤ nd) (h2 : r.bits * (nd - 1) ≤ 127) :
    let ds := radixLoop r.bits t.w (n % (2 ^ t.w : Int)).toNat nd
      ((((nd - 1) * r.bits % 256 : Nat) : Int).bmod 256)
    ds.length = nd ∧ (∀ c ∈ ds, IsDigitOf r.base c) ∧ (valueIn r.base ds : Int) = n % 2 ^ t.w ∧
    (nd = numberOfDigits r t n → ds.head? = some 48 → ds = [48]) := by
  obtain ⟨s1, s2, s3, s4⟩ := numberOfDigits_spec r t ht n hn
  have hstart : ((((nd - 1) * r.bits % 256 : Nat) : Int).bmod 256) = ((nd : Int) - 1) * r.bits := by
    rw [Nat.mul_comm] at h2
    have e : (((nd - 1 : Nat) : Int)) = (nd : Int) - 1 := by omega
    rw [← e, Nat.mod_eq_of_lt (by omega), Int.bmod_def]
    have hp : (((nd - 1) * r.bits : Nat) : Int) = ((nd - 1 : Nat) : Int) * (r.bits : Int) := by push_cast; rfl
    rw [← hp]
    generalize (nd - 1) * r.bits = z at *
    have : ((z : Nat) : Int) % ((256 : Nat) : Int) = z := by omega
    rw [this, if_pos (by omega)]
  have hpos : (0 : Int) < 2 ^ t.w := Int.pow_pos (by decide)
  have hlt := Int.emod_lt_of_pos n hpos
  have hge := Int.emod_nonneg n (Int.ne_of_gt hpos)
  have hu : pattern t n < 2 ^ t.w := by
    unfold pattern
    have : ((2 ^ t.w : Nat) : Int) = (2 : Int) ^ t.w := by simp
    omega
  have hk : 1 ≤ r.bits ∧ r.bits ≤ 4 := by cases r <;> simp [Radix.bits]
  simp only [hstart]
  obtain ⟨l1, l2, l3, l4⟩ := radixLoop_spec r.bits hk.1 hk.2 t.w (pattern t n) hu nd nd (Nat.le_refl _)
  rw [show (n % (2 ^ t.w : Int)).toNat = pattern t n from rfl]
  rw [base_eq]
  refine ⟨l1, l2, ?_, ?_⟩
  · have hle : 2 ^ (r.bits * numberOfDigits r t n) ≤ 2 ^ (r.bits * nd) :=
      Nat.pow_le_pow_right (by omega) (Nat.mul_le_mul_left _ h1)
    rw [l3, Nat.mod_eq_of_lt (by omega)]
    unfold pattern
    omega
  · intro hnd hz
    have h48 := l4 48 hz
    have hz0 : hexDigit 48 = some 0 := by decide
    rw [hz0] at h48
    simp only [Option.some.injEq] at h48
    have hone : nd = 1 := by
      rcases s3 with h | h
      · omega
      · exfalso
        rw [← hnd] at h s2
        have hp : 0 < 2 ^ (r.bits * (nd - 1)) := Nat.pow_pos (by omega)
        have h3 : 1 ≤ pattern t n / 2 ^ (r.bits * (nd - 1)) := (Nat.le_div_iff_mul_le hp).mpr (by omega)
        have h5 : pattern t n / 2 ^ (r.bits * (nd - 1)) < 2 ^ r.bits := by
          rw [Nat.div_lt_iff_lt_mul hp, ← Nat.pow_add]
          have e : r.bits + r.bits * (nd - 1) = r.bits * nd := by
            rw [Nat.mul_sub]; have : r.bits * 1 ≤ r.bits * nd := Nat.mul_le_mul_left _ (by omega); omega
          rw [e]; exact s2
        rw [Nat.mod_eq_of_lt h5] at h48
        omega
    match hds : radixLoop r.bits t.w (pattern t n) nd (((nd : Int) - 1) * r.bits), l1, hz with
    | [c], _, hz => simpa using hz
    | [], l, _ => simp at l; omega
    | _ :: _ :: _, l, _ => simp at l; omega

/-- **C49.** Without a size limit, any value of any type is printed as an optional header followed by digits of
the base whose value is the bit pattern of the number: as many digits as it needs (no superfluous zeros), or as
many as the requested number of bits when that is more.  The letters are capitals. -/
theorem c49_print (r : Radix) (t : IType) (ht : IsCxxType t) (n : Int) (hn : InRange t n)
    (padded leftAligned addHeader : Bool) (zeroBits : Nat) (hz : zeroBits ≤ 64) :
    ∃ ds, printRadix r t n 0 padded leftAligned zeroBits addHeader = (if addHeader then r.header else []) ++ ds ∧
      (∀ c ∈ ds, IsDigitOf r.base c) ∧ ds ≠ [] ∧ (valueIn r.base ds : Int) = n % 2 ^ t.w ∧
      (zeroBits + r.bits - 1) / r.bits ≤ ds.length ∧
      (ds.length ≠ (zeroBits + r.bits - 1) / r.bits → ds.head? = some 48 → ds = [48]) ∧
      ∀ c ∈ ds, c.toNat < 97 := by
  obtain ⟨f1, f2, f3⟩ := size_facts r t ht n hn
  have hk : 1 ≤ r.bits ∧ (r.bits = 1 ∨ r.bits = 3 ∨ r.bits = 4) := by cases r <;> simp [Radix.bits]
  have hzd : r.bits * ((zeroBits + r.bits - 1) / r.bits) ≤ 66 ∧ (zeroBits + r.bits - 1) / r.bits ≤ 64 := by
    rcases hk.2 with h | h | h <;> rw [h] <;> omega
  have hzeq : (zeroBits + (r.bits - 1)) / r.bits = (zeroBits + r.bits - 1) / r.bits := by
    congr 1; omega
  have hk4 : r.bits ≤ 4 := by omega
  unfold printRadix
  simp only [if_true, Bool.false_and, Bool.false_eq_true, if_false, List.nil_append, List.append_nil, hzeq]
  have hhs : (if addHeader = true then 2 else 0) ≤ 2 := by split <;> omega
  have hh : (if addHeader = true then [48, r.letter] else []) = (if addHeader = true then r.header else []) := by
    cases r <;> rfl
  rw [if_neg (by omega), hh]
  generalize hZ : (zeroBits + r.bits - 1) / r.bits = Z at *
  have hmul : ∀ m, r.bits * m ≤ 66 → r.bits * (m - 1) ≤ 127 := by
    intro m h; have : r.bits * (m - 1) ≤ r.bits * m := Nat.mul_le_mul_left _ (by omega); omega
  by_cases hgt : Z > numberOfDigits r t n
  · simp only [if_pos hgt, if_neg (show ¬ ((if addHeader = true then 2 else 0) + Z > 1000) by omega)]
    obtain ⟨d1, d2, d3, d4⟩ := digits_text r t ht n hn Z (by omega) (hmul Z hzd.1)
    refine ⟨_, rfl, d2, ?_, d3, by rw [d1]; omega, fun h => absurd d1 h,
      radixLoop_upper _ hk4 _ _ _ _⟩
    intro h; rw [h] at d1; simp at d1; omega
  · simp only [if_neg hgt]
    obtain ⟨d1, d2, d3, d4⟩ := digits_text r t ht n hn (numberOfDigits r t n) (by omega) (hmul _ f3)
    refine ⟨_, rfl, d2, ?_, d3, by rw [d1]; omega, fun _ => d4 rfl, radixLoop_upper _ hk4 _ _ _ _⟩
    intro h; rw [h] at d1; simp at d1; omega

/-- **C49.** Printing with the header and converting the text back returns the number: for every value of every
type and each notation. -/
theorem c49_roundtrip (r : Radix) (t : IType) (ht : IsCxxType t) (n : Int) (hn : InRange t n) (zeroBits : Nat)
    (hz : zeroBits ≤ t.w) :
    stringToInteger t (printRadix r t n 0 false false zeroBits true) = (true, n) := by
  have hw := cxx_le t ht
  have hk : 1 ≤ r.bits ∧ (r.bits = 1 ∨ r.bits = 3 ∨ r.bits = 4) := by cases r <;> simp [Radix.bits]
  obtain ⟨ds, hp, hd, hne, hv, hlen, hlead, -⟩ := c49_print r t ht n hn false false true zeroBits (by omega)
  rw [if_pos rfl] at hp
  have hpos : (0 : Int) < 2 ^ t.w := Int.pow_pos (by decide)
  have hlt := Int.emod_lt_of_pos n hpos
  have hcast : ((2 ^ t.w : Nat) : Int) = (2 : Int) ^ t.w := by simp
  have hvlt : valueIn r.base ds < 2 ^ t.w := by omega
  have hmax : ds.length ≤ r.maxDigits t := by
    unfold Radix.maxDigits
    have hmono : (zeroBits + r.bits - 1) / r.bits ≤ (t.w + r.bits - 1) / r.bits :=
      Nat.div_le_div_right (by omega)
    by_cases he : ds.length = (zeroBits + r.bits - 1) / r.bits
    · omega
    · match ds, hne with
      | c :: cs, _ =>
        by_cases h48 : c = 48
        · have hl : (c :: cs).length = 1 := by rw [hlead he (by simp [h48])]; rfl
          have hge : 1 ≤ (t.w + r.bits - 1) / r.bits := by
            have : 8 ≤ t.w := by rcases ht with h | h | h | h <;> omega
            rcases hk.2 with h | h | h <;> rw [h] <;> omega
          omega
        · obtain ⟨d, hd1, hd2⟩ := hd c (by simp)
          have hd0 : 1 ≤ d := by
            have : d ≠ 0 := by
              rintro rfl
              apply h48
              unfold hexDigit at hd1
              have := c.toNat_lt
              have : c.toNat = 48 := by
                repeat' split at hd1
                all_goals simp at hd1
                all_goals omega
              exact UInt8.toNat_inj.mp this
            omega
          rw [valueIn_cons, hd1, Option.getD_some, base_eq, ← Nat.pow_mul] at hvlt
          have h2 : 1 * 2 ^ (r.bits * cs.length) ≤ d * 2 ^ (r.bits * cs.length) := Nat.mul_le_mul_right _ hd0
          have h3 : 2 ^ (r.bits * cs.length) < 2 ^ t.w := by omega
          have h4 := (Nat.pow_lt_pow_iff_right (by omega)).mp h3
          rw [List.length_cons]
          rcases hk.2 with h | h | h <;> rw [h] at h4 ⊢ <;> omega
  have key := c49_parse r t ht ds
  have hok := key.1.mpr ⟨hd, hmax, hvlt⟩
  obtain ⟨k1, k2⟩ := key.2 hok
  rw [hp]
  have hval : (stringToInteger t (r.header ++ ds)).2 = n := by
    rw [hv] at k2
    have hspan : maxVal t - minVal t < 2 ^ t.w := by
      unfold maxVal minVal
      rcases ht with h | h | h | h <;> rw [h] <;> split <;> decide
    have h1 := k1.1; have h2 := k1.2; have h3 := hn.1; have h4 := hn.2
    generalize (stringToInteger t (r.header ++ ds)).2 = x at *
    have e1 := Int.emod_add_mul_ediv x (2 ^ t.w)
    have e2 := Int.emod_add_mul_ediv n (2 ^ t.w)
    rw [k2] at e1
    have hdiff : x - n = 2 ^ t.w * (x / 2 ^ t.w - n / 2 ^ t.w) := by rw [Int.mul_sub]; omega
    generalize x / 2 ^ t.w - n / 2 ^ t.w = q at hdiff
    generalize (2 : Int) ^ t.w = P at *
    have hq : q = 0 := by
      by_cases hq : q = 0
      · exact hq
      · exfalso
        rcases Int.lt_or_gt_of_ne hq with h | h
        · have : P * q ≤ P * (-1) := Int.mul_le_mul_of_nonneg_left (by omega) (by omega)
          omega
        · have : P * 1 ≤ P * q := Int.mul_le_mul_of_nonneg_left (by omega) (by omega)
          omega
    rw [hq] at hdiff
    omega
  have : ∀ q : Bool × Int, q.1 = true → q.2 = n → q = (true, n) := by rintro ⟨a, b⟩ rfl rfl; rfl
  exact this _ hok hval

example : printRadix .hex ⟨16, true⟩ (-2) 0 false false 0 true = [48, 120, 70, 70, 70, 69] ∧
    stringToInteger ⟨16, true⟩ [48, 120, 70, 70, 70, 69] = (true, -2) := by
  have e : printRadix .hex ⟨16, true⟩ (-2) 0 false false 0 true = [48, 120, 70, 70, 70, 69] := by decide +kernel
  refine ⟨e, ?_⟩
  rw [← e]
  exact c49_roundtrip .hex ⟨16, true⟩ (.inr (.inl rfl)) (-2) (by unfold InRange; decide) 0 (by decide)

/-- **C49.** A padded field of a given size is always filled exactly, whatever the number, the alignment, the
header and the zero padding; what does not fit is one question mark. -/
theorem c49_field (r : Radix) (t : IType) (ht : IsCxxType t) (n : Int) (hn : InRange t n) (size : Nat)
    (hs : 0 < size) (leftAligned addHeader : Bool) (zeroBits : Nat) (hz : zeroBits ≤ 64) :
    (printRadix r t n size true leftAligned zeroBits addHeader).length = size ∧
    (63 ∈ printRadix r t n size true leftAligned zeroBits addHeader ↔
      size < (if addHeader then 2 else 0) + numberOfDigits r t n) := by
  obtain ⟨f1, f2, f3⟩ := size_facts r t ht n hn
  have hk : 1 ≤ r.bits ∧ (r.bits = 1 ∨ r.bits = 3 ∨ r.bits = 4) := by cases r <;> simp [Radix.bits]
  have hzd : r.bits * ((zeroBits + (r.bits - 1)) / r.bits) ≤ 66 := by
    rcases hk.2 with h | h | h <;> rw [h] <;> omega
  unfold printRadix
  simp only [if_neg (show ¬ size = 0 by omega), Bool.true_and]
  have hhs : (if addHeader = true then 2 else 0) = if addHeader = true then 2 else 0 := rfl
  generalize hH : (if addHeader = true then 2 else 0) = H
  have hHlen : (if addHeader = true then [48, r.letter] else []).length = H := by
    rw [← hH]; cases addHeader <;> simp
  have hH63 : ∀ c ∈ (if addHeader = true then [48, r.letter] else []), c ≠ 63 := by
    intro c hc; cases addHeader <;> simp at hc
    rcases hc with rfl | rfl
    · decide
    · cases r <;> decide
  have hdig63 : ∀ ds : List UInt8, (∀ c ∈ ds, IsDigitOf r.base c) → (63 : UInt8) ∉ ds := by
    intro ds h hm
    obtain ⟨d, hd, -⟩ := h 63 hm
    revert hd; decide +revert
  have hmul : ∀ m, r.bits * m ≤ 66 → r.bits * (m - 1) ≤ 127 := by
    intro m h; have : r.bits * (m - 1) ≤ r.bits * m := Nat.mul_le_mul_left _ (by omega); omega
  by_cases hlt : size < H + numberOfDigits r t n
  · rw [if_pos hlt]
    refine ⟨?_, by simp [hlt]⟩
    cases leftAligned <;> simp <;> omega
  · rw [if_neg hlt]
    -- the size and the number of digits after the zero padding
    have hfit : ∃ ns nd, (if (zeroBits + (r.bits - 1)) / r.bits > numberOfDigits r t n then
          if H + (zeroBits + (r.bits - 1)) / r.bits > size then
            (size, (zeroBits + (r.bits - 1)) / r.bits - (H + (zeroBits + (r.bits - 1)) / r.bits - size))
          else (H + (zeroBits + (r.bits - 1)) / r.bits, (zeroBits + (r.bits - 1)) / r.bits)
        else (H + numberOfDigits r t n, numberOfDigits r t n)) = (ns, nd) ∧
        ns = H + nd ∧ ns ≤ size ∧ numberOfDigits r t n ≤ nd ∧ r.bits * nd ≤ 66 := by
      generalize hZ : (zeroBits + (r.bits - 1)) / r.bits = Z at *
      by_cases h1 : Z > numberOfDigits r t n
      · by_cases h2 : H + Z > size
        · refine ⟨_, _, by rw [if_pos h1, if_pos h2], by omega, by omega, by omega, ?_⟩
          have : r.bits * (Z - (H + Z - size)) ≤ r.bits * Z := Nat.mul_le_mul_left _ (by omega)
          omega
        · exact ⟨_, _, by rw [if_pos h1, if_neg h2], rfl, by omega, by omega, hzd⟩
      · exact ⟨_, _, by rw [if_neg h1], rfl, by omega, by omega, f3⟩
    obtain ⟨ns, nd, he, h1, h2, h3, h4⟩ := hfit
    simp only [he]
    obtain ⟨d1, d2, d3, d4⟩ := digits_text r t ht n hn nd h3 (hmul nd h4)
    have hno := hdig63 _ d2
    have hnoH : (63 : UInt8) ∉ (if addHeader = true then [48, r.letter] else []) := fun h => hH63 63 h rfl
    constructor
    · cases leftAligned <;> simp only [List.length_append, d1, hHlen] <;> simp <;> omega
    · constructor
      · intro hm
        exfalso
        cases leftAligned <;>
          simp only [List.mem_append, hno, hnoH, or_false, false_or, Bool.not_true, Bool.not_false,
            Bool.false_eq_true, if_true, if_false, List.not_mem_nil, List.mem_replicate] at hm <;>
          exact absurd hm.2 (by decide)
      · intro h; exact absurd h hlt

example : printRadix .bin ⟨8, false⟩ 5 10 true true 4 true = "0b0101    ".toList.map (fun c => UInt8.ofNat c.toNat) := by
  decide +kernel

end Verif.IntText

namespace Verif.IntText
open Verif.Spec.IntText

/-- A text of digits has a value below the power of ten of its length. -/
theorem value_lt_pow (body : List UInt8) (hd : ∀ c ∈ body, IsDigit c) :
    digitsValue 0 body < 10 ^ body.length := by
  induction body with
  | nil => simp [digitsValue]
  | cons c cs ih =>
    have := ih (fun c hc => hd c (by simp [hc]))
    have hc := hd c (by simp)
    unfold IsDigit at hc
    have e : digitsValue 0 (c :: cs) = digitsValue (10 * 0 + ((c.toNat : Int) - 48)) cs := rfl
    rw [e, digitsValue_acc, List.length_cons, Int.pow_succ]
    have hp : (0:Int) < 10 ^ cs.length := Int.pow_pos (by decide)
    have h2 : (10 * 0 + ((c.toNat : Int) - 48)) * 10 ^ cs.length ≤ 9 * 10 ^ cs.length :=
      Int.mul_le_mul_of_nonneg_right (by omega) (by omega)
    omega

/-- **C50.** A padded decimal field of a given size is filled exactly, whatever the number (except the minimum of
a signed type, which ignores the field: `c16_minimum_ignores_padding`), and shows a question mark exactly when
sign and digits do not fit. -/
theorem c50_decimal_field_partial (t : IType) (ht : IsCxxType t) (n : Int) (hn : InRange t n)
    (hmin : n ≠ minVal t ∨ n = 0) (size : Nat) (hs : 0 < size) (leftAligned zeros : Bool) :
    (printDecimal t n size true leftAligned zeros).length = size ∧
    (63 ∈ printDecimal t n size true leftAligned zeros ↔
      (size : Int) ≤ (if n < 0 then 1 else 0) ∨ 10 ^ (size - (if n < 0 then 1 else 0)) ≤ n.natAbs) := by
  have ft := typeFacts t ht
  have hmm := ft.maxmax_eq
  have hbig := ft.big
  obtain ⟨hlo, hhi⟩ := hn
  have hnm : ¬ (n = t.cast (2 ^ (t.w - 1)) ∧ n < 0) := by
    rintro ⟨h1, h2⟩
    have hsg : t.signed = true := by
      cases h' : t.signed
      · have : minVal t = 0 := by simp [minVal, h']
        omega
      · rfl
    have : t.cast (2 ^ (t.w - 1)) = minVal t := by
      rcases t with ⟨w, s⟩; simp only at hsg; subst hsg
      rcases ht with h | h | h | h <;> simp only at h <;> subst h <;> decide
    rcases hmin with h | h
    · exact h (by omega)
    · omega
  have hb : (decide (n = t.cast (2 ^ (t.w - 1))) && decide (n < 0)) = false := by
    simp only [Bool.and_eq_false_iff, decide_eq_false_iff_not]; omega
  have hneg : n < 0 → - maxVal t ≤ n := by
    intro h
    have hsg : t.signed = true := by
      cases h' : t.signed
      · have : minVal t = 0 := by simp [minVal, h']
        omega
      · rfl
    have hme := ft.min_eq hsg
    omega
  have hpos : (if n < 0 then t.cast (-n) else n) = n.natAbs := by
    split
    · rename_i h
      have := hneg h
      rw [ft.cast_id _ (by have := ft.min_le; omega) (by omega)]; omega
    · omega
  have habs : (n.natAbs : Int) ≤ maxVal t := by
    by_cases h : n < 0
    · have := hneg h; omega
    · omega
  have hw : (n.natAbs : Int) ≤ 2 ^ t.w - 1 := by
    have : maxVal t ≤ 2 ^ t.w - 1 := by
      rcases t with ⟨w, s⟩
      rcases ht with h | h | h | h <;> simp only at h <;> subst h <;> cases s <;> decide
    omega
  have htext := printPositive_text t ht n.natAbs hw
  obtain ⟨o1, o2, o3⟩ := orderOfMagnitude_spec t ht n.natAbs (by omega) habs
  -- the number of digits
  have hlen : (printPositive t.w n.natAbs).length = 1 + orderOfMagnitude t n.natAbs := by
    have hup := length_of_value _ htext.digits htext.noLeadingZero (orderOfMagnitude t n.natAbs)
      (by rw [htext.value]; exact_mod_cast o1)
    have hlow := value_lt_pow _ htext.digits
    rw [htext.value] at hlow
    have hne : 0 < (printPositive t.w n.natAbs).length := List.length_pos_iff.mpr htext.nonempty
    by_cases hz : n.natAbs = 0
    · rw [o3 (by omega)] at hup ⊢; omega
    · have o2' := o2 (by omega)
      have h1 : (10 : Int) ^ orderOfMagnitude t n.natAbs < 10 ^ (printPositive t.w n.natAbs).length := by omega
      have h2 : 10 ^ orderOfMagnitude t n.natAbs < 10 ^ (printPositive t.w n.natAbs).length := by exact_mod_cast h1
      have := (Nat.pow_lt_pow_iff_right (by omega : 1 < 10)).mp h2
      omega
  have hfit : size < (if n < 0 then 2 else 1) + orderOfMagnitude t n.natAbs ↔
      ((size : Int) ≤ (if n < 0 then 1 else 0) ∨ 10 ^ (size - (if n < 0 then 1 else 0)) ≤ n.natAbs) := by
    have hsg : ∀ g : Nat, (size < (g + 1) + orderOfMagnitude t n.natAbs ↔ size ≤ g ∨ 10 ^ (size - g) ≤ n.natAbs) := by
      intro g
      constructor
      · intro h
        by_cases hg : size ≤ g
        · exact .inl hg
        · right
          have hz : 0 < n.natAbs := by
            by_cases hz : n.natAbs = 0
            · have := o3 (by omega); omega
            · omega
          have o2' : (10 : Int) ^ orderOfMagnitude t n.natAbs ≤ n.natAbs := o2 (by omega)
          have o2'' : 10 ^ orderOfMagnitude t n.natAbs ≤ n.natAbs := by exact_mod_cast o2'
          have : 10 ^ (size - g) ≤ 10 ^ orderOfMagnitude t n.natAbs := Nat.pow_le_pow_right (by omega) (by omega)
          omega
      · rintro (h | h)
        · omega
        · have o1' : n.natAbs < 10 ^ (orderOfMagnitude t n.natAbs + 1) := by exact_mod_cast o1
          have : 10 ^ (size - g) < 10 ^ (orderOfMagnitude t n.natAbs + 1) := by omega
          have := (Nat.pow_lt_pow_iff_right (by omega : 1 < 10)).mp this
          omega
    by_cases hn0 : n < 0
    · have := hsg 1
      simp only [if_pos hn0]
      rw [this]; omega
    · have := hsg 0
      simp only [if_neg hn0]
      rw [this]; omega
  have h63 : (63 : UInt8) ∉ printPositive t.w n.natAbs := by
    intro h; have := htext.digits 63 h; revert this; unfold IsDigit; decide
  unfold printDecimal
  simp only [if_neg (show ¬ size = 0 by omega), Bool.true_or, Bool.true_and, hb, Bool.false_and, Bool.false_eq_true,
    if_false, hpos, Int.toNat_natCast]
  by_cases hlt : size < (if n < 0 then 2 else 1) + orderOfMagnitude t n.natAbs
  · rw [if_pos hlt, ← hfit]
    refine ⟨?_, by simp [hlt]⟩
    cases leftAligned <;> simp <;> omega
  · rw [if_neg hlt, ← hfit]
    constructor
    · clear hfit hmin
      by_cases hn0 : n < 0
      · simp only [if_pos hn0] at hlt ⊢
        cases leftAligned <;> simp [hlen] <;> omega
      · simp only [if_neg hn0] at hlt ⊢
        cases leftAligned <;> simp [hlen] <;> omega
    · constructor
      · intro hm
        exfalso
        have hs45 : (63 : UInt8) ∉ (if n < 0 then [45] else ([] : List UInt8)) := by
          split <;> decide
        cases leftAligned <;> cases zeros <;>
          simp only [List.mem_append, h63, hs45, or_false, false_or, Bool.not_true, Bool.not_false,
            Bool.false_eq_true, if_true, if_false, List.not_mem_nil, List.mem_replicate] at hm <;>
          exact absurd hm.2 (by decide)
      · intro h; exact absurd h hlt

example : (printDecimal ⟨16, true⟩ (-250) 3 true false false) = [32, 32, 63] ∧
    (printDecimal ⟨16, true⟩ (-250) 6 true false false) = [32, 32, 45, 50, 53, 48] := by
  constructor <;> decide +kernel

end Verif.IntText
