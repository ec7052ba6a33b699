import Verif.Proof.Format3
set_option linter.unusedSimpArgs false
set_option maxRecDepth 8000
namespace Verif.Format
open Verif.IntText hiding digitChar
open Verif.Spec.Format
open Verif.Spec.IntText (IsCxxType InRange minVal maxVal IsDigit digitsValue hexDigit IsDigitOf valueIn)

/-! ## Bytes and characters -/

def ch (b : UInt8) : Char := Char.ofNat b.toNat

/-- The digit of a character. -/
def dig (b : UInt8) : Nat := (hexDigit b).getD 0

theorem ch_dig (b : UInt8) (h : b.toNat < 97) (base : Nat) (hd : IsDigitOf base b) : ch b = digitChar (dig b) ∧ dig b < base := by
  obtain ⟨d, h1, h2⟩ := hd
  have hb : dig b = d := by simp [dig, h1]
  rw [hb]
  refine ⟨?_, h2⟩
  have key : ∀ n : Fin 97, ∀ d, hexDigit (UInt8.ofNat n.val) = some d → Char.ofNat n.val = digitChar d := by decide +kernel
  have e : UInt8.ofNat b.toNat = b := by simp
  exact key ⟨b.toNat, h⟩ d (by rw [show ((⟨b.toNat, h⟩ : Fin 97).val) = b.toNat from rfl, e]; exact h1)

theorem map_ch (base : Nat) (ds : List UInt8) (h : ∀ c ∈ ds, IsDigitOf base c) (hu : ∀ c ∈ ds, c.toNat < 97) :
    ds.map ch = (ds.map dig).map digitChar := by
  rw [List.map_map]
  apply List.map_congr_left
  intro c hc
  exact (ch_dig c (hu c hc) base (h c hc)).1

theorem value_dig (base : Nat) (ds : List UInt8) : value base (ds.map dig) = valueIn base ds := by
  unfold value valueIn
  rw [List.foldl_map]
  rfl

theorem isDigit_of (c : UInt8) (h : IsDigit c) : IsDigitOf 10 c ∧ c.toNat < 97 := by
  obtain ⟨h1, h2⟩ := h
  refine ⟨⟨c.toNat - 48, ?_, by omega⟩, by omega⟩
  unfold hexDigit
  rw [if_pos ⟨h1, h2⟩]

theorem digitsValue_in (ds : List UInt8) (h : ∀ c ∈ ds, IsDigit c) : ∀ a : Nat,
    digitsValue a ds = ((ds.foldl (fun a c => 10 * a + (hexDigit c).getD 0) a : Nat) : Int) := by
  induction ds with
  | nil => intro a; rfl
  | cons c ds ih =>
    intro a
    have ih := ih (fun x hx => h x (by simp [hx]))
    obtain ⟨h1, h2⟩ := h c (by simp)
    have hx : (hexDigit c).getD 0 = c.toNat - 48 := by unfold hexDigit; rw [if_pos ⟨h1, h2⟩]; rfl
    have ih' := ih (10 * a + (c.toNat - 48))
    rw [List.foldl_cons, hx, ← ih']
    unfold digitsValue
    rw [List.foldl_cons]
    congr 1
    omega

theorem decimal_numeral (ds : List UInt8) (h : ∀ c ∈ ds, IsDigit c) (hne : ds ≠ []) (v : Nat) (hv : digitsValue 0 ds = v) :
    Numeral 10 (ds.map dig) v ∧ ds.map ch = (ds.map dig).map digitChar := by
  refine ⟨⟨by simpa using hne, ?_, ?_⟩, map_ch 10 ds (fun c hc => (isDigit_of c (h c hc)).1) (fun c hc => (isDigit_of c (h c hc)).2)⟩
  · intro d hd
    obtain ⟨c, hc, rfl⟩ := List.mem_map.mp hd
    exact (ch_dig c (isDigit_of c (h c hc)).2 10 (isDigit_of c (h c hc)).1).2
  · rw [value_dig]
    have := digitsValue_in ds h 0
    unfold valueIn
    have h2 : ((v : Nat) : Int) = _ := hv.symm.trans this
    exact_mod_cast h2.symm

theorem dig_lead (ds : List UInt8) (h : ∀ c ∈ ds, IsDigitOf 16 c) (hu : ∀ c ∈ ds, c.toNat < 97)
    (hz : ds.head? = some 48 → ds = [48]) : (ds.map dig).head? = some 0 → ds.map dig = [0] := by
  intro h0
  match ds with
  | [] => simp at h0
  | c :: cs =>
    simp only [List.map_cons, List.head?_cons, Option.some.injEq] at h0
    have hc := h c (by simp)
    obtain ⟨d, h1, h2⟩ := hc
    have hd : d = 0 := by rw [← h0]; simp [dig, h1]
    subst hd
    have : c = 48 := by
      have hlt := hu c (by simp)
      unfold hexDigit at h1
      apply UInt8.toNat_inj.mp
      have h48 : (48 : UInt8).toNat = 48 := rfl
      split at h1
      · simp only [Option.some.injEq] at h1; omega
      · split at h1
        · simp only [Option.some.injEq] at h1; omega
        · split at h1
          · omega
          · simp at h1
    subst this
    rw [hz rfl]
    rfl

theorem map_replicate_ch (n : Nat) (b : UInt8) : (List.replicate n b).map ch = List.replicate n (ch b) := by simp

/-! ## Decimal numbers in a field -/

theorem printDecimal_field (t : IType) (ht : IsCxxType t) (n : Int) (hn : InRange t n) (w : Nat) (padded left zeros : Bool)
    (hz : zeros = true → 0 ≤ n) (hm : n = minVal t → n < 0 → padded = false ∨ w = 0) :
    ∃ ds, Numeral 10 ds n.natAbs ∧ (ds.head? = some 0 → ds = [0]) ∧
      (printDecimal t n w padded left zeros).map ch = decimalField w padded left zeros (decide (n < 0)) (ds.map digitChar) := by
  by_cases hw : w = 0
  · subst hw
    rw [printDecimal_zero]
    obtain ⟨ds, hp, hd, hne, hv, hl⟩ := c16_print_is_decimal t ht n hn false false
    obtain ⟨k1, k2⟩ := decimal_numeral ds hd hne n.natAbs hv
    refine ⟨ds.map dig, k1, dig_lead ds (fun c hc => ?_) (fun c hc => (isDigit_of c (hd c hc)).2) hl, ?_⟩
    · obtain ⟨x, y, z⟩ := (isDigit_of c (hd c hc)).1; exact ⟨x, y, by omega⟩
    · rw [hp, List.map_append, k2]
      have hlen : 0 < ds.length := List.length_pos_iff.mpr hne
      unfold decimalField numField fill
      rw [if_neg (show ¬ (zeros = true ∧ left = false ∧
        ((if decide (n < 0) = true then ['-'] else []) ++ (ds.map dig).map digitChar).length ≤ 0) by
          simp only [List.length_append, List.length_map]; omega)]
      simp only [true_or, if_true, Nat.zero_sub, List.replicate_zero, List.append_nil, List.nil_append, ite_self]
      by_cases hneg : n < 0
      · simp [hneg, show ch 45 = '-' from rfl]
      · simp [hneg]
  · by_cases hmin : n = minVal t ∧ n < 0
    · have hz0 : zeros = false := by
        cases zeros
        · rfl
        · have := hz rfl; omega
      have hp0 : padded = false := by
        rcases hm hmin.1 hmin.2 with h | h
        · exact h
        · exact absurd h hw
      subst hz0; subst hp0
      obtain ⟨ds, hp, hd, hne, hv, hl⟩ := c16_print_is_decimal t ht n hn false false
      obtain ⟨k1, k2⟩ := decimal_numeral ds hd hne n.natAbs hv
      refine ⟨ds.map dig, k1, dig_lead ds (fun c hc => ?_) (fun c hc => (isDigit_of c (hd c hc)).2) hl, ?_⟩
      · obtain ⟨x, y, z⟩ := (isDigit_of c (hd c hc)).1; exact ⟨x, y, by omega⟩
      · rw [printDecimal_min t ht n hmin.1 hmin.2 w (by omega) left, hp]
        have hlen : 0 < ds.length := List.length_pos_iff.mpr hne
        unfold decimalField numField fill
        simp only [Bool.false_eq_true, false_and, if_false, Bool.or_false, hmin.2, if_true, decide_true, List.length_append,
          List.length_map, List.length_cons, List.length_nil]
        by_cases hlt : w < 0 + 1 + ds.length
        · rw [if_pos hlt, if_neg (by omega)]; rfl
        · rw [if_neg hlt, if_pos (by omega), List.map_append, k2]; rfl
    · obtain ⟨ds, hd, hne, hv, hl, hp⟩ := printDecimal_body t ht n hn (by have := (typeFacts t ht).min_le; omega)
      obtain ⟨k1, k2⟩ := decimal_numeral ds hd hne n.natAbs hv
      refine ⟨ds.map dig, k1, dig_lead ds (fun c hc => ?_) (fun c hc => (isDigit_of c (hd c hc)).2) hl, ?_⟩
      · obtain ⟨x, y, z⟩ := (isDigit_of c (hd c hc)).1; exact ⟨x, y, by omega⟩
      · rw [hp w padded left zeros (by omega), ← k2]
        unfold decimalField numField fill
        have e45 : [ch 45] = ['-'] := rfl
        have e48 : ch 48 = '0' := rfl
        have e32 : ch 32 = ' ' := rfl
        have e63 : ch 63 = '?' := rfl
        by_cases hneg : n < 0
        · have hz0 : zeros = false := by
            cases zeros
            · rfl
            · have := hz rfl; omega
          subst hz0
          simp only [hneg, if_true, decide_true, Bool.or_false, Bool.false_eq_true, false_and, if_false, List.length_append,
            List.length_map, List.length_cons, List.length_nil]
          by_cases hlt : w < 0 + 1 + ds.length
          · rw [if_pos hlt, if_neg (show ¬ (w = 0 ∨ 0 + 1 + ds.length ≤ w) by omega)]
            cases padded <;> cases left <;> simp [e32, e63]
          · rw [if_neg hlt, if_pos (show w = 0 ∨ 0 + 1 + ds.length ≤ w by omega), show 0 + 1 + ds.length = ds.length + 1 by omega]
            cases padded <;> cases left <;> simp [e32, show ch 45 = '-' from rfl]
        · simp only [hneg, if_false, decide_false, Bool.false_eq_true, List.nil_append, List.length_map]
          by_cases hlt : w < ds.length
          · rw [if_pos hlt, if_neg (show ¬ (zeros = true ∧ left = false ∧ ds.length ≤ w) by omega),
              if_neg (show ¬ (w = 0 ∨ ds.length ≤ w) by omega)]
            cases padded <;> cases left <;> cases zeros <;> simp [e32, e63, e48]
          · rw [if_neg hlt, if_pos (show w = 0 ∨ ds.length ≤ w by omega)]
            have hle : ds.length ≤ w := by omega
            cases padded <;> cases left <;> cases zeros <;> simp [e32, e63, e48, hle]

/-! ## The other bases -/

theorem ch_header (r : Radix) (h : Bool) : (if h = true then r.header else []).map ch =
    if h = true then Spec.Format.header r.base else [] := by
  cases r <;> cases h <;> rfl

theorem printRadix_ceil (r : Radix) (t : IType) (n : Int) (w : Nat) (padded left header : Bool) (a b : Nat)
    (h : (a + r.bits - 1) / r.bits = (b + r.bits - 1) / r.bits) :
    printRadix r t n w padded left a header = printRadix r t n w padded left b header := by
  have hk : 1 ≤ r.bits := by cases r <;> simp [Radix.bits]
  have e : ∀ x, x + (r.bits - 1) = x + r.bits - 1 := by intro x; omega
  unfold printRadix
  simp only [e, h]

theorem printRadix_num (r : Radix) (t : IType) (ht : IsCxxType t) (n : Int) (hn : InRange t n) (w : Nat) (padded left header : Bool)
    (zb : Nat) (hz : zb ≤ 64) :
    ∃ ds, Numeral r.base ds (n % 2 ^ t.w).toNat ∧
      (if w = 0 then (zb + r.bits - 1) / r.bits else min ((zb + r.bits - 1) / r.bits) (w - if header then 2 else 0)) ≤ ds.length ∧
      (ds.length ≠ (if w = 0 then (zb + r.bits - 1) / r.bits
        else min ((zb + r.bits - 1) / r.bits) (w - if header then 2 else 0)) → ds.head? = some 0 → ds = [0]) ∧
      (printRadix r t n w padded left zb header).map ch =
        numField w padded left ' ' ((if header then Spec.Format.header r.base else []) ++ ds.map digitChar) := by
  have hk : 1 ≤ r.bits ∧ (r.bits = 1 ∨ r.bits = 3 ∨ r.bits = 4) := by cases r <;> simp [Radix.bits]
  have hb16 : r.base ≤ 16 := by cases r <;> decide
  have hpos : (0 : Int) < 2 ^ t.w := Int.pow_pos (by decide)
  have hge := Int.emod_nonneg n (Int.ne_of_gt hpos)
  have main : ∀ zb', zb' ≤ 64 → ∃ ds, Numeral r.base ds (n % 2 ^ t.w).toNat ∧ (zb' + r.bits - 1) / r.bits ≤ ds.length ∧
      (ds.length ≠ (zb' + r.bits - 1) / r.bits → ds.head? = some 0 → ds = [0]) ∧
      (printRadix r t n 0 false false zb' header).map ch = (if header then Spec.Format.header r.base else []) ++ ds.map digitChar := by
    intro zb' hz'
    obtain ⟨ds, hp, hd, hne, hv, hlen, hlead, hup⟩ := c49_print r t ht n hn false false header zb' hz'
    refine ⟨ds.map dig, ⟨by simpa using hne, ?_, ?_⟩, by simpa using hlen, ?_, ?_⟩
    · intro d hd'
      obtain ⟨c, hc, rfl⟩ := List.mem_map.mp hd'
      exact (ch_dig c (hup c hc) _ (hd c hc)).2
    · rw [value_dig]; omega
    · intro h1
      exact dig_lead ds (fun c hc => by obtain ⟨x, y, z⟩ := hd c hc; exact ⟨x, y, by omega⟩) hup (hlead (by simpa using h1))
    · rw [hp, List.map_append, map_ch r.base ds hd hup, ch_header]
  by_cases hw : w = 0
  · subst hw
    obtain ⟨ds, h1, h2, h3, h4⟩ := main zb hz
    refine ⟨ds, h1, by simpa using h2, by simpa using h3, ?_⟩
    rw [printRadix_zero, h4]
    unfold numField fill
    simp
  · have hZ : (r.bits * min ((zb + r.bits - 1) / r.bits) (w - if header then 2 else 0) + r.bits - 1) / r.bits =
        min ((zb + r.bits - 1) / r.bits) (w - if header then 2 else 0) := by
      rcases hk.2 with h | h | h <;> rw [h] <;> omega
    have hle : r.bits * min ((zb + r.bits - 1) / r.bits) (w - if header then 2 else 0) ≤ 66 := by
      have : r.bits * min ((zb + r.bits - 1) / r.bits) (w - if header then 2 else 0) ≤ r.bits * ((zb + r.bits - 1) / r.bits) :=
        Nat.mul_le_mul_left _ (by omega)
      have : r.bits * ((zb + r.bits - 1) / r.bits) ≤ 66 := by rcases hk.2 with h | h | h <;> rw [h] <;> omega
      omega
    obtain ⟨zb', hz', he⟩ : ∃ zb', zb' ≤ 64 ∧ (zb' + r.bits - 1) / r.bits =
        min ((zb + r.bits - 1) / r.bits) (w - if header then 2 else 0) := by
      refine ⟨min (r.bits * min ((zb + r.bits - 1) / r.bits) (w - if header then 2 else 0)) 64, by omega, ?_⟩
      have hZle : min ((zb + r.bits - 1) / r.bits) (w - if header then 2 else 0) ≤ (zb + r.bits - 1) / r.bits := Nat.min_le_left _ _
      generalize min ((zb + r.bits - 1) / r.bits) (w - if header then 2 else 0) = Z at *
      rcases hk.2 with h | h | h <;> rw [h] at hle hZle ⊢ <;> omega
    obtain ⟨ds, h1, h2, h3, h4⟩ := main zb' hz'
    have hB := printRadix_field r t ht n hn w (by omega) padded left header zb hz _ rfl
    rw [printRadix_ceil r t n 0 false false header (r.bits * min ((zb + r.bits - 1) / r.bits) (w - if header then 2 else 0)) zb'
      (by rw [hZ, he])] at hB
    refine ⟨ds, h1, ?_, ?_, ?_⟩
    · rw [if_neg hw, ← he]; exact h2
    · rw [if_neg hw, ← he]; exact h3
    · rw [hB, ← h4]
      unfold numField fill
      generalize printRadix r t n 0 false false zb' header = B
      have e32 : ch 32 = ' ' := rfl
      have e63 : ch 63 = '?' := rfl
      simp only [List.length_map]
      by_cases hlt : w < B.length
      · rw [if_pos hlt, if_neg (show ¬ (w = 0 ∨ B.length ≤ w) by omega)]
        cases padded <;> cases left <;> simp [e32, e63]
      · rw [if_neg hlt, if_pos (show w = 0 ∨ B.length ≤ w by omega)]
        cases padded <;> cases left <;> simp [e32]

end Verif.Format
