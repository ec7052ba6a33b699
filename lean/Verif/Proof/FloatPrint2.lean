import Verif.Proof.FloatPrint
import Verif.Spec.FloatPrint
/-! ## Printing floating point numbers: digits and sizes -/
set_option linter.unusedSimpArgs false
namespace Verif.FloatPrint
open Verif.Spec.FloatPrint (lastDigits lay place Rounded triple letter)

/-- The digits one after the other. -/
def stream (rnd : Rat → Rat) : Nat → Rat → List Char
  | 0, _ => []
  | p + 1, x => digitChar x.floor :: stream rnd p (rnd (rnd (x - x.floor) * 10))

theorem stream_length (rnd : Rat → Rat) : ∀ (p : Nat) (x : Rat), (stream rnd p x).length = p
  | 0, _ => rfl
  | p + 1, x => by simp [stream, stream_length rnd p]

theorem digits_low (rnd : Rat → Rat) : ∀ (p turns : Nat) (x : Rat) (e : Int), e < -1 → p ≤ turns → digits rnd turns x e p = stream rnd p x
  | 0, 0, x, e, _, _ => rfl
  | 0, t + 1, x, e, he, _ => by
    rw [digits, if_neg (by simp; omega)]; rfl
  | p + 1, 0, x, e, _, h => by omega
  | p + 1, t + 1, x, e, he, h => by
    rw [digits, if_pos (by right; omega)]
    have h1 : ¬ (e = -1) := by omega
    have h2 : ¬ (((p + 1 : Nat) : Int) = 0) := by omega
    have h3 : (((p + 1 : Nat) : Int) > 0) := by omega
    have h4 : ((p + 1 : Nat) : Int) - 1 = p := by omega
    simp only [h1, h2, h3, h4, if_true, if_false, List.nil_append, stream]
    rw [digits_low rnd p t _ (e - 1) (by omega) (by omega)]

theorem digits_lay (rnd : Rat → Rat) : ∀ (n p turns : Nat) (x : Rat), n + p ≤ turns → digits rnd turns x ((n : Int) - 1) p = lay (stream rnd p x) n
  | 0, 0, t, x, _ => by
    cases t with
    | zero => rfl
    | succ t => rw [digits, if_neg (by simp)]; rfl
  | 0, p + 1, 0, x, h => by omega
  | 0, p + 1, t + 1, x, h => by
    rw [digits, if_pos (by right; omega)]
    have h1 : (((0 : Nat) : Int) - 1 = -1) := by omega
    have h2 : ¬ (((p + 1 : Nat) : Int) = 0) := by omega
    have h3 : (((p + 1 : Nat) : Int) > 0) := by omega
    have h4 : ((p + 1 : Nat) : Int) - 1 = p := by omega
    simp only [h1, h2, h3, h4, if_true, if_false, stream, lay]
    rw [digits_low rnd p t _ _ (by omega) (by omega)]
    rfl
  | n + 1, 0, 0, x, h => by omega
  | n + 1, 0, t + 1, x, h => by
    rw [digits, if_pos (by left; omega)]
    have h1 : ¬ (((n + 1 : Nat) : Int) - 1 = -1) := by omega
    have h3 : ¬ (((0 : Nat) : Int) > 0) := by omega
    have h2 : (((0 : Nat) : Int) = 0) := rfl
    have h5 : ((n + 1 : Nat) : Int) - 1 - 1 = n - 1 := by omega
    simp only [h1, h2, h3, h5, if_true, if_false, List.nil_append, stream, lay]
    have := digits_lay rnd n 0 t x (by omega)
    simp only [stream] at this
    simp
    exact this
  | n + 1, p + 1, 0, x, h => by omega
  | n + 1, p + 1, t + 1, x, h => by
    rw [digits, if_pos (by left; omega)]
    have h1 : ¬ (((n + 1 : Nat) : Int) - 1 = -1) := by omega
    have h2 : ¬ (((p + 1 : Nat) : Int) = 0) := by omega
    have h3 : (((p + 1 : Nat) : Int) > 0) := by omega
    have h4 : ((p + 1 : Nat) : Int) - 1 = p := by omega
    have h5 : ((n + 1 : Nat) : Int) - 1 - 1 = n - 1 := by omega
    simp only [h1, h2, h3, h4, h5, if_true, if_false, List.nil_append, stream, lay]
    rw [digits_lay rnd n p t _ (by omega)]

theorem fixed_place (rnd : Rat → Rat) (x : Rat) (h0 : 0 ≤ x) (h1 : x < 10) (e : Int) (p : Nat) : fixed rnd x e p = place (stream rnd p x) e := by
  rw [fixed, if_neg (by grind), place]
  split
  · rename_i h
    have h2 : (-(e + 1)).toNat = (-e - 1).toNat := by omega
    rw [h2, digits_low rnd p _ x (e - 1) (by omega) (by simp)]
  · rename_i h
    have h2 : e = (((e + 1).toNat : Nat) : Int) - 1 := by omega
    have := digits_lay rnd (e + 1).toNat p ((e + 1).toNat + (p : Int).toNat) x (by simp)
    rw [← h2] at this
    exact this

theorem lay_length : ∀ (ds : List Char) (n : Nat), (lay ds n).length = if ds.length ≤ n then n else ds.length + 1
  | [], 0 => rfl
  | d :: ds, 0 => by simp [lay]
  | [], n + 1 => by have := lay_length [] n; simp [lay] at *; omega
  | d :: ds, n + 1 => by
    have := lay_length ds n
    simp only [lay, List.length_cons, this]
    split <;> split <;> omega

/-- The number of characters of digits that are placed. -/
theorem place_length (ds : List Char) (e : Int) : ((place ds e).length : Int) = if e < 0 then 1 - e + ds.length else if (ds.length : Int) ≤ e + 1 then e + 1 else ds.length + 1 := by
  rw [place]
  split
  · rename_i h
    rw [List.length_append, List.length_append, List.length_replicate]
    simp only [List.length_cons, List.length_nil]
    omega
  · rename_i h
    rw [lay_length]
    split <;> split <;> omega

/-! ### The digits in exact arithmetic -/

theorem lastDigits_cons : ∀ (k n : Nat), lastDigits (k + 1) n = Char.ofNat (48 + n / 10 ^ k % 10) :: lastDigits k (n % 10 ^ k)
  | 0, n => by simp [lastDigits]
  | k + 1, n => by
    rw [lastDigits, lastDigits_cons k (n / 10)]
    rw [lastDigits]
    have h1 : n / 10 / 10 ^ k = n / 10 ^ (k + 1) := by rw [Nat.div_div_eq_div_mul, Nat.pow_succ, Nat.mul_comm]
    have h2 : n / 10 % 10 ^ k = n % 10 ^ (k + 1) / 10 := by
      rw [Nat.pow_succ, Nat.mul_comm, Nat.mod_mul_right_div_self]
    have h3 : n % 10 ^ (k + 1) % 10 = n % 10 := by
      rw [Nat.pow_succ, Nat.mul_comm, Nat.mod_mul_right_mod]
    rw [h1, h2, h3]
    rfl

theorem floor_eq {x : Rat} {n : Int} (h1 : (n : Rat) ≤ x) (h2 : x < (n : Rat) + 1) : x.floor = n := by
  have a : n ≤ x.floor := Rat.le_floor_iff.mpr h1
  have b : x.floor < n + 1 := Rat.floor_lt_iff.mpr (by rw [Rat.intCast_add]; exact h2)
  omega

theorem cast_cast (n : Nat) : (((n : Nat) : Int) : Rat) = (n : Rat) := rfl

theorem floor_nonneg {x : Rat} (h : 0 ≤ x) : 0 ≤ x.floor := Rat.le_floor_iff.mpr (by simpa using h)

theorem stream_id : ∀ (p : Nat) (x : Rat), 0 ≤ x → x < 10 → stream id (p + 1) x = lastDigits (p + 1) (x * 10 ^ p).floor.toNat
  | 0, x, h0, h1 => by
    rw [Rat.pow_zero, Rat.mul_one]
    have a := floor_nonneg h0
    have b : x.floor < 10 := Rat.floor_lt_iff.mpr (by simpa using h1)
    obtain ⟨n, hn⟩ := Int.eq_ofNat_of_zero_le a
    rw [stream, stream, hn, lastDigits, lastDigits]
    simp only [digitChar, List.nil_append]
    congr 2
    omega
  | p + 1, x, h0, h1 => by
    have a := floor_nonneg h0
    have b : x.floor < 10 := Rat.floor_lt_iff.mpr (by simpa using h1)
    obtain ⟨d, hd⟩ := Int.eq_ofNat_of_zero_le a
    have f1 : (x.floor : Rat) ≤ x := Rat.floor_le x
    have f2 : x < (x.floor : Rat) + 1 := by have := Rat.lt_floor_add_one x; rw [Rat.intCast_add] at this; exact this
    rw [stream]
    simp only [id]
    rw [stream_id p ((x - x.floor) * 10) (by grind) (by grind), lastDigits_cons (p + 1)]
    -- the number of all digits
    have pos : (0 : Rat) < 10 ^ (p + 1) := Rat.pow_pos (by decide)
    obtain ⟨m, hm⟩ : ∃ m : Nat, ((x - x.floor) * 10 * 10 ^ p).floor = m := Int.eq_ofNat_of_zero_le (floor_nonneg (by
      have := mul_le (show (0 : Rat) ≤ (x - x.floor) * 10 by grind) (show (0 : Rat) < 10 ^ p from Rat.pow_pos (by decide))
      grind))
    have em : (x - x.floor) * 10 * 10 ^ p = (x - x.floor) * 10 ^ (p + 1) := by rw [Rat.pow_succ]; grind
    have g1 : (m : Rat) ≤ (x - x.floor) * 10 ^ (p + 1) := by
      have := Rat.floor_le ((x - x.floor) * 10 * 10 ^ p); rw [hm, em, cast_cast] at this; exact this
    have g2 : (x - x.floor) * 10 ^ (p + 1) < (m : Rat) + 1 := by
      have := Rat.lt_floor_add_one ((x - x.floor) * 10 * 10 ^ p); rw [hm, em, Rat.intCast_add, cast_cast] at this; exact this
    have g3 : m < 10 ^ (p + 1) := by
      have h3 : (x - x.floor) * 10 ^ (p + 1) < 1 * 10 ^ (p + 1) := mul_lt (by grind) pos
      have h4 : (m : Rat) < 10 ^ (p + 1) := by grind
      have h5 : ((10 : Rat) ^ (p + 1)) = ((10 ^ (p + 1) : Nat) : Rat) := by simp
      rw [h5] at h4
      exact Rat.natCast_lt_natCast.mp h4
    have all : (x * 10 ^ (p + 1)).floor = ((d * 10 ^ (p + 1) + m : Nat) : Int) := by
      apply floor_eq
      · have h6 : (((d * 10 ^ (p + 1) + m : Nat) : Int) : Rat) = (d : Rat) * 10 ^ (p + 1) + m := by rw [cast_cast]; simp
        rw [h6]
        rw [hd] at g1
        have h7 : (((d : Nat) : Int) : Rat) = (d : Rat) := rfl
        rw [h7] at g1
        grind
      · have h6 : (((d * 10 ^ (p + 1) + m : Nat) : Int) : Rat) = (d : Rat) * 10 ^ (p + 1) + m := by rw [cast_cast]; simp
        rw [h6]
        rw [hd] at g2
        have h7 : (((d : Nat) : Int) : Rat) = (d : Rat) := rfl
        rw [h7] at g2
        grind
    rw [all, hm, hd]
    have e1 : (d * 10 ^ (p + 1) + m) / 10 ^ (p + 1) = d := by
      rw [Nat.mul_comm, Nat.mul_add_div (Nat.pow_pos (by decide)), Nat.div_eq_of_lt g3, Nat.add_zero]
    have e2 : (d * 10 ^ (p + 1) + m) % 10 ^ (p + 1) = m := by
      rw [Nat.mul_comm, Nat.mul_add_mod, Nat.mod_eq_of_lt g3]
    simp only [Int.toNat_natCast]
    rw [e1, e2]
    congr 1
    simp only [digitChar]
    congr 1
    omega

end Verif.FloatPrint
