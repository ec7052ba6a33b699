import Verif.Proof.FloatPrint2
/-! ## Printing floating point numbers: what is chosen -/
set_option linter.unusedSimpArgs false
namespace Verif.FloatPrint
open Verif.Spec.FloatPrint (lastDigits lay place Rounded triple letter)

/-- The number of characters of `p` digits that are placed. -/
def placeLen (e p : Int) : Int := if e < 0 then 1 - e + p else if p ≤ e + 1 then e + 1 else p + 1

/-- The sign. -/
def sg (sign : Bool) : Int := if sign then 1 else 0

theorem sg_cases (s : Bool) : sg s = 0 ∨ sg s = 1 := by cases s <;> simp [sg]

theorem sizeFixed_ok (e : Int) (s : Bool) (prec room : Int) (h0 : 0 ≤ prec) (h : 0 < (sizeFixed e s prec room).2) :
    (sizeFixed e s prec room).1 = sg s + placeLen e (sizeFixed e s prec room).2 ∧ (sizeFixed e s prec room).1 ≤ room := by
  revert h
  unfold sizeFixed
  change 0 < _ → _
  have hs : (if s then (1 : Int) else 0) = sg s := rfl
  rw [hs]
  have := sg_cases s
  generalize sg s = g at *
  simp only [placeLen]
  repeat' split
  all_goals (intro h; simp only at h ⊢; (try split) <;> (try split) <;> omega)

theorem sizeRelative_ok (e : Int) (s : Bool) (prec room : Int) (h : 0 < (sizeRelative e s prec room).2) :
    (sizeRelative e s prec room).1 = sg s + placeLen e (sizeRelative e s prec room).2 ∧ (sizeRelative e s prec room).1 ≤ room := by
  revert h
  unfold sizeRelative
  have hs : (if s then (1 : Int) else 0) = sg s := rfl
  rw [hs]
  have := sg_cases s
  generalize sg s = g at *
  simp only [placeLen]
  repeat' split
  all_goals (intro h; simp only at h ⊢; (try split) <;> (try split) <;> omega)

theorem sizeRelative_le (e : Int) (s : Bool) (prec room : Int) (h0 : 0 ≤ prec) : (sizeRelative e s prec room).2 ≤ prec := by
  unfold sizeRelative
  simp only
  generalize (if s then (1 : Int) else 0) = g
  repeat' split
  all_goals (simp only; omega)

theorem sizeFixed_le (e : Int) (s : Bool) (prec room : Int) (h0 : 0 ≤ prec) : (sizeFixed e s prec room).2 ≤ prec + e.natAbs + 1 := by
  unfold sizeFixed
  simp only
  generalize (if s then (1 : Int) else 0) = g
  repeat' split
  all_goals (simp only; omega)

theorem sizeFixed_val (e : Int) (s : Bool) (prec room : Int) :
    ∃ a left : Int, (0 ≤ e → a = e + 1) ∧ (e < 0 → a = 1) ∧ left = room - a - sg s ∧
    ((left < 0 ∧ 0 ≤ e ∧ (sizeFixed e s prec room).2 = -1) ∨ (left < 0 ∧ e < 0 ∧ (sizeFixed e s prec room).2 = 0) ∨
     (0 ≤ left ∧ left < 2 ∧ 0 < prec ∧ 0 ≤ e ∧ (sizeFixed e s prec room).2 = e + 1) ∨
     (0 ≤ left ∧ left < 2 ∧ 0 < prec ∧ e < 0 ∧ (sizeFixed e s prec room).2 = 0) ∨
     (2 ≤ left ∧ 0 < prec ∧ (sizeFixed e s prec room).2 = max 0 (min prec (left - 1) + e + 1)) ∨
     (0 ≤ left ∧ prec ≤ 0 ∧ (sizeFixed e s prec room).2 = max 0 (prec + e + 1))) := by
  refine ⟨if e ≥ 0 then e + 1 else 1, room - (if e ≥ 0 then e + 1 else 1) - sg s, ?_, ?_, rfl, ?_⟩
  · intro h; rw [if_pos h]
  · intro h; rw [if_neg (by omega)]
  generalize hr : sizeFixed e s prec room = r
  unfold sizeFixed at hr
  have hs : (if s then (1 : Int) else 0) = sg s := rfl
  rw [hs] at hr
  generalize sg s = g at *
  by_cases he : e ≥ 0
  · simp only [if_pos he] at hr ⊢
    repeat' split at hr
    all_goals (clear hs; subst hr; simp only [and_true]; omega)
  · simp only [if_neg he] at hr ⊢
    repeat' split at hr
    all_goals (clear hs; subst hr; simp only [and_true]; omega)

theorem sizeFixed_next (e : Int) (s : Bool) (prec room : Int) (h : 0 ≤ (sizeFixed e s prec room).2) :
    (sizeFixed (e + 1) s prec room).2 ≤ (sizeFixed e s prec room).2 + 1 := by
  obtain ⟨a, l, h1, h2, h3, h4⟩ := sizeFixed_val e s prec room
  obtain ⟨a', l', h1', h2', h3', h4'⟩ := sizeFixed_val (e + 1) s prec room
  omega

theorem sizeRelative_val (e : Int) (s : Bool) (prec room : Int) :
    ∃ a left w : Int, (0 ≤ e → a = e + 1 ∧ w = prec - (e + 1)) ∧ (e < 0 → a = 2 - e ∧ w = prec - 1) ∧ left = room - a - sg s ∧
    ((left < 0 ∧ 0 ≤ e ∧ (sizeRelative e s prec room).2 = -1) ∨ (left < 0 ∧ e < 0 ∧ (sizeRelative e s prec room).2 = 0) ∨
     (0 ≤ left ∧ w ≤ 0 ∧ (sizeRelative e s prec room).2 = prec) ∨
     (0 ≤ left ∧ 0 < w ∧ 0 ≤ e ∧ (sizeRelative e s prec room).2 = e + 1 + min w (max 0 (left - 1))) ∨
     (0 ≤ left ∧ 0 < w ∧ e < 0 ∧ (sizeRelative e s prec room).2 = 1 + min w left)) := by
  refine ⟨if e ≥ 0 then e + 1 else 2 - e, room - (if e ≥ 0 then e + 1 else 2 - e) - sg s, if e ≥ 0 then prec - (e + 1) else prec - 1, ?_, ?_, rfl, ?_⟩
  · intro h; rw [if_pos h, if_pos h]; exact ⟨rfl, rfl⟩
  · intro h; rw [if_neg (by omega), if_neg (by omega)]; exact ⟨rfl, rfl⟩
  generalize hr : sizeRelative e s prec room = r
  unfold sizeRelative at hr
  have hs : (if s then (1 : Int) else 0) = sg s := rfl
  rw [hs] at hr
  generalize sg s = g at *
  by_cases he : e ≥ 0
  · simp only [if_pos he] at hr ⊢
    repeat' split at hr
    all_goals (clear hs; subst hr; simp only [and_true]; omega)
  · simp only [if_neg he] at hr ⊢
    repeat' split at hr
    all_goals (clear hs; subst hr; simp only [and_true]; omega)

theorem sizeRelative_next (e : Int) (s : Bool) (prec room : Int) (h0 : 0 ≤ prec) (h : 0 ≤ (sizeRelative e s prec room).2) :
    (sizeRelative (e + 1) s prec room).2 ≤ (sizeRelative e s prec room).2 + 1 := by
  obtain ⟨a, l, w, h1, h2, h3, h4⟩ := sizeRelative_val e s prec room
  obtain ⟨a', l', w', h1', h2', h3', h4'⟩ := sizeRelative_val (e + 1) s prec room
  omega

theorem withExponent_le (x m : Int) (s : Bool) (prec room : Int) : (withExponent x m s prec room).2 ≤ prec := by
  rw [withExponent]
  split
  · exact sizeRelative_le m s prec _ (by omega)
  · exact Int.le_refl _

/-- The number of characters of a number in a notation. -/
def bodyLen (n : Notation) (e p : Int) : Int :=
  let g := engineering e
  match n with
  | .fixed => placeLen e p
  | .relative => placeLen e p
  | .exponent => placeLen 0 p + expSize e
  | .engineering => placeLen (e - g) p + expSize g
  | .smart => placeLen (e - g) p + (if g ≠ 0 ∧ inRange g then 1 else expSize g)
  | .compact => if inRange g then placeLen (e - g) p + (if g ≠ 0 then 1 else 0) else placeLen 0 p + expSize e

theorem withExponent_ok (x m : Int) (s : Bool) (prec room : Int) (h : 0 < (withExponent x m s prec room).2) :
    (withExponent x m s prec room).1 = sg s + (placeLen m (withExponent x m s prec room).2 + x) ∧ (withExponent x m s prec room).1 ≤ room := by
  rw [withExponent] at h ⊢
  split
  · rename_i hp
    rw [if_pos hp] at h
    obtain ⟨a, b⟩ := sizeRelative_ok m s prec (room - x) h
    simp only
    omega
  · rename_i hp
    rw [if_neg hp] at h
    simp only at h; omega

theorem sizeOf_ok (n : Notation) (e : Int) (s : Bool) (prec room : Int) (h0 : 0 ≤ prec) (h : 0 < (sizeOf n e s prec room).2) :
    (sizeOf n e s prec room).1 = sg s + bodyLen n e (sizeOf n e s prec room).2 ∧ (sizeOf n e s prec room).1 ≤ room := by
  cases n with
  | fixed => exact sizeFixed_ok e s prec room h0 h
  | relative => exact sizeRelative_ok e s prec room h
  | exponent => exact withExponent_ok _ _ s prec room h
  | engineering => exact withExponent_ok _ _ s prec room h
  | smart => exact withExponent_ok _ _ s prec room h
  | compact =>
    simp only [sizeOf, bodyLen] at h ⊢
    split
    · rename_i hr
      rw [if_pos hr] at h
      exact withExponent_ok _ _ s prec room h
    · rename_i hr
      rw [if_neg hr] at h
      exact withExponent_ok _ _ s prec room h

theorem sizeOf_le (n : Notation) (e : Int) (s : Bool) (prec room : Int) (h0 : 0 ≤ prec) : (sizeOf n e s prec room).2 ≤ prec + e.natAbs + 1 := by
  cases n with
  | fixed => exact sizeFixed_le e s prec room h0
  | relative => have := sizeRelative_le e s prec room h0; simp only [sizeOf]; omega
  | exponent => simp only [sizeOf]; have := withExponent_le (expSize e) 0 s prec room; omega
  | engineering => simp only [sizeOf]; have := withExponent_le (expSize (engineering e)) (e - engineering e) s prec room; omega
  | smart => simp only [sizeOf]; have := withExponent_le (if engineering e ≠ 0 ∧ inRange (engineering e) = true then 1 else expSize (engineering e)) (e - engineering e) s prec room; omega
  | compact =>
    simp only [sizeOf]
    split
    · have := withExponent_le (if engineering e ≠ 0 then 1 else 0) (e - engineering e) s prec room; omega
    · have := withExponent_le (expSize e) 0 s prec room; omega

theorem sizeOf_le_prec (n : Notation) (hn : ¬ (n = .fixed ∨ n = .relative)) (e : Int) (s : Bool) (prec room : Int) : (sizeOf n e s prec room).2 ≤ prec := by
  cases n with
  | fixed => simp at hn
  | relative => simp at hn
  | exponent => exact withExponent_le _ _ _ _ _
  | engineering => exact withExponent_le _ _ _ _ _
  | smart => exact withExponent_le _ _ _ _ _
  | compact => simp only [sizeOf]; split <;> exact withExponent_le _ _ _ _ _

/-! ### The two cases of rounding -/

theorem natCast_pow_ten (k : Nat) : (((10 ^ k : Nat) : Int) : Rat) = 10 ^ k := by rw [cast_cast]; simp

/-- The number of `k + 1` digits that a number between one and ten begins with. -/
theorem head_digits (y : Rat) (k : Nat) (h1 : 1 ≤ y) (h2 : y < 10) : ∃ N : Nat, (y * 10 ^ k).floor = (N : Int) ∧ 10 ^ k ≤ N ∧ N < 10 ^ (k + 1) := by
  have pos : (0 : Rat) < 10 ^ k := Rat.pow_pos (by decide)
  have a := mul_le h1 pos
  have b := mul_lt h2 pos
  obtain ⟨N, hN⟩ := Int.eq_ofNat_of_zero_le (floor_nonneg (show 0 ≤ y * 10 ^ k by grind))
  refine ⟨N, hN, ?_, ?_⟩
  · have : ((10 ^ k : Nat) : Int) ≤ (y * 10 ^ k).floor := Rat.le_floor_iff.mpr (by rw [natCast_pow_ten]; grind)
    rw [hN] at this; exact Int.ofNat_le.mp this
  · have : (y * 10 ^ k).floor < ((10 ^ (k + 1) : Nat) : Int) := Rat.floor_lt_iff.mpr (by rw [natCast_pow_ten, Rat.pow_succ]; grind)
    rw [hN] at this; exact Int.ofNat_lt.mp this

theorem rounded_plain (x m : Rat) (e : Int) (k : Nat) (hx : x = m * T e) (h1 : 1 ≤ m) (hy : m + T (-((k + 1 : Nat) : Int)) * 5 < 10) :
    ∃ N, Rounded x (k + 1) e N ∧ stream id (k + 1) (m + T (-((k + 1 : Nat) : Int)) * 5) = lastDigits (k + 1) N := by
  have hp := T_pos (-((k + 1 : Nat) : Int))
  have hy1 : 1 ≤ m + T (-((k + 1 : Nat) : Int)) * 5 := by grind
  obtain ⟨N, hN, a, b⟩ := head_digits _ k hy1 hy
  refine ⟨N, ⟨by omega, by simpa using a, b, ?_⟩, ?_⟩
  · rw [← hN]
    congr 1
    have e1 : (10 : Rat) ^ k = T k := (T_nat k).symm
    have e2 : x * (10 : Rat) ^ (((k + 1 : Nat) : Int) - 1 - e) = m * T k := by
      have : T k = T e * T (((k + 1 : Nat) : Int) - 1 - e) := by rw [← T_add]; congr 1; omega
      rw [hx, this]; grind
    have e3 : T (-((k + 1 : Nat) : Int)) * T k = T (-1) := by rw [← T_add]; congr 1; omega
    rw [T_neg_one] at e3
    rw [e2, e1]
    grind
  · rw [stream_id k _ (by grind) hy, hN]; rfl

theorem rounded_over (x m : Rat) (e : Int) (k p : Nat) (hx : x = m * T e) (h2 : m ≤ 10) (hy : 10 ≤ m + T (-(p : Int)) * 5) (hk : k ≤ p) :
    ∃ N, Rounded x (k + 1) (e + 1) N ∧ stream id (k + 1) ((m + T (-(p : Int)) * 5) / 10) = lastDigits (k + 1) N ∧
      0 ≤ (m + T (-(p : Int)) * 5) / 10 ∧ (m + T (-(p : Int)) * 5) / 10 < 10 := by
  have hp := T_pos (-(p : Int))
  have hp1 : T (-(p : Int)) ≤ 1 := by rw [← T_zero]; exact T_mono (by omega)
  have pos := T_pos k
  have e0 : (10 : Rat) ^ k = T k := (T_nat k).symm
  have hkp : T (-(p : Int)) * T k ≤ 1 := by rw [← T_add, ← T_zero]; exact T_mono (by omega)
  have g1 : 0 ≤ (m + T (-(p : Int)) * 5) / 10 := by grind
  have g2 : (m + T (-(p : Int)) * 5) / 10 < 10 := by grind
  have f1 : ((m + T (-(p : Int)) * 5) / 10 * 10 ^ k).floor = ((10 ^ k : Nat) : Int) := by
    apply floor_eq
    · rw [natCast_pow_ten, e0]
      have := mul_le (show 1 ≤ (m + T (-(p : Int)) * 5) / 10 by grind) pos
      grind
    · rw [natCast_pow_ten, e0]
      have := mul_le (show (m + T (-(p : Int)) * 5) / 10 ≤ 1 + T (-(p : Int)) / 2 by grind) pos
      grind
  refine ⟨10 ^ k, ⟨by omega, by simp, Nat.pow_lt_pow_right (by decide) (by omega), ?_⟩, ?_, g1, g2⟩
  · symm
    have e2 : x * (10 : Rat) ^ (((k + 1 : Nat) : Int) - 1 - (e + 1)) = m * T ((k : Int) - 1) := by
      have : T ((k : Int) - 1) = T e * T (((k + 1 : Nat) : Int) - 1 - (e + 1)) := by rw [← T_add]; congr 1; omega
      rw [hx, this]; grind
    have e3 : T ((k : Int) - 1) = T k / 10 := by
      have : T k = T ((k : Int) - 1) * T 1 := by rw [← T_add]; congr 1; omega
      rw [T_one] at this; grind
    rw [e2, e3]
    have l1 := mul_le (show 10 - T (-(p : Int)) * 5 ≤ m by grind) pos
    have l2 := mul_le h2 pos
    apply floor_eq
    · rw [natCast_pow_ten, e0]; grind
    · rw [natCast_pow_ten, e0]; grind
  · rw [stream_id k _ g1 g2, f1]; rfl

end Verif.FloatPrint
