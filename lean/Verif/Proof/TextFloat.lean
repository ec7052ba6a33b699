import Verif.Model.TextFloat
import Verif.Spec.TextFloat
import Verif.Proof.FloatInt2
set_option maxRecDepth 8000
set_option linter.unusedSimpArgs false
set_option linter.unusedVariables false
namespace Verif.FloatNum
open Verif.Spec.TextFloat

/-! ## Arithmetic -/

theorem step_arith (U B Q P t R W d k b0 : Int) (hB : B = 10 * b0) (hb0 : 1 ≤ b0) (hQ : 1 ≤ Q) (hk : 0 ≤ k)
    (hU : 20 * Q ≤ U) (hkQ : 3 * k + 2 ≤ Q) (hW0 : 0 ≤ W) (hW : W < b0) (hd0 : 0 ≤ d) (hd : d ≤ 9)
    (h1 : Q * (B * t) ≤ Q * (d * U) + (d * U + Q * B)) (h1' : Q * (d * U) ≤ Q * (B * t) + (d * U + Q * B))
    (h2 : Q * R ≤ Q * (P + t) + (P + t + Q)) (h2' : Q * (P + t) ≤ Q * R + (P + t + Q))
    (h3 : Q * (b0 * P) ≤ Q * (W * U) + 3 * k * U * b0) (h3' : Q * (W * U) ≤ Q * (b0 * P) + 3 * k * U * b0) :
    Q * (B * R) ≤ Q * ((10 * W + d) * U) + 3 * (k + 1) * U * B ∧
    Q * ((10 * W + d) * U) ≤ Q * (B * R) + 3 * (k + 1) * U * B := by
  have hU0 : 0 ≤ U := by omega
  have hB10 : 10 ≤ B := by omega
  have hB0 : 0 ≤ B := by omega
  have g1 : 10 * (Q * (b0 * P)) = Q * (B * P) := by subst hB; grind
  have g2 : 10 * (3 * k * U * b0) = 3 * k * (U * B) := by subst hB; grind
  have hdU : d * U ≤ 9 * U := Int.mul_le_mul_of_nonneg_right hd hU0
  have hUB : 10 * U ≤ U * B := by rw [Int.mul_comm U]; exact Int.mul_le_mul_of_nonneg_right hB10 hU0
  have hQB : 20 * (Q * B) ≤ U * B := by
    rw [← Int.mul_assoc]; exact Int.mul_le_mul_of_nonneg_right hU hB0
  have hWB : (10 * W + d) * U ≤ U * B := by
    rw [Int.mul_comm U]; exact Int.mul_le_mul_of_nonneg_right (by omega) hU0
  have hWQ : Q * ((10 * W + d) * U) ≤ Q * (U * B) := Int.mul_le_mul_of_nonneg_left hWB (by omega)
  have hkUB : (3 * k + 2) * (U * B) ≤ Q * (U * B) :=
    Int.mul_le_mul_of_nonneg_right hkQ (Int.mul_nonneg hU0 hB0)
  have e1 : Q * ((10 * W + d) * U) = 10 * (Q * (W * U)) + Q * (d * U) := by grind
  have e2 : Q * (B * (P + t)) = Q * (B * P) + Q * (B * t) := by grind
  have e3 : (3 * k + 2) * (U * B) = 3 * k * (U * B) + 2 * (U * B) := by grind
  have hX : Q * (B * (P + t)) ≤ Q * (2 * (U * B)) := by
    have : Q * (2 * (U * B)) = 2 * (Q * (U * B)) := by grind
    omega
  have hX' : B * (P + t) ≤ 2 * (U * B) := Int.le_of_mul_le_mul_left hX (by omega)
  have m2 : B * (Q * R) ≤ B * (Q * (P + t) + (P + t + Q)) := Int.mul_le_mul_of_nonneg_left h2 hB0
  have m2' : B * (Q * (P + t)) ≤ B * (Q * R + (P + t + Q)) := Int.mul_le_mul_of_nonneg_left h2' hB0
  have e4 : B * (Q * R) = Q * (B * R) := by grind
  have e5 : B * (Q * (P + t) + (P + t + Q)) = Q * (B * (P + t)) + B * (P + t) + Q * B := by grind
  have e6 : B * (Q * R + (P + t + Q)) = Q * (B * R) + B * (P + t) + Q * B := by grind
  have e7 : B * (Q * (P + t)) = Q * (B * (P + t)) := by grind
  have e8 : 3 * (k + 1) * U * B = 3 * k * (U * B) + 3 * (U * B) := by grind
  constructor <;> omega

theorem final_arith (U B Q P R V W k : Int) (hB0 : 1 ≤ B) (hQ : 1 ≤ Q) (hk : 0 ≤ k)
    (hU : 20 * Q ≤ U) (hkQ : 3 * k + 2 ≤ Q) (hW : W < B)
    (h2 : Q * R ≤ Q * (V * U + P) + (V * U + P + Q)) (h2' : Q * (V * U + P) ≤ Q * R + (V * U + P + Q))
    (h3 : Q * (B * P) ≤ Q * (W * U) + 3 * k * U * B) (h3' : Q * (W * U) ≤ Q * (B * P) + 3 * k * U * B) :
    Q * (B * R) ≤ Q * ((V * B + W) * U) + (3 * k + V + 3) * U * B ∧
    Q * ((V * B + W) * U) ≤ Q * (B * R) + (3 * k + V + 3) * U * B := by
  have hU0 : 0 ≤ U := by omega
  have hB1 : 0 ≤ B := by omega
  have hQB : 20 * (Q * B) ≤ U * B := by
    rw [← Int.mul_assoc]; exact Int.mul_le_mul_of_nonneg_right hU hB1
  have hWB : W * U ≤ U * B := by
    rw [Int.mul_comm U]; exact Int.mul_le_mul_of_nonneg_right (by omega) hU0
  have hWQ : Q * (W * U) ≤ Q * (U * B) := Int.mul_le_mul_of_nonneg_left hWB (by omega)
  have hkUB : (3 * k + 2) * (U * B) ≤ Q * (U * B) :=
    Int.mul_le_mul_of_nonneg_right hkQ (Int.mul_nonneg hU0 hB1)
  have hUB0 : 0 ≤ U * B := Int.mul_nonneg hU0 hB1
  have e3 : (3 * k + 2) * (U * B) = 3 * k * (U * B) + 2 * (U * B) := by grind
  have e0 : 3 * k * U * B = 3 * k * (U * B) := by grind
  have hX : Q * (B * P) ≤ Q * (2 * (U * B)) := by
    have : Q * (2 * (U * B)) = 2 * (Q * (U * B)) := by grind
    omega
  have hX' : B * P ≤ 2 * (U * B) := Int.le_of_mul_le_mul_left hX (by omega)
  have m2 : B * (Q * R) ≤ B * (Q * (V * U + P) + (V * U + P + Q)) := Int.mul_le_mul_of_nonneg_left h2 hB1
  have m2' : B * (Q * (V * U + P)) ≤ B * (Q * R + (V * U + P + Q)) := Int.mul_le_mul_of_nonneg_left h2' hB1
  have e4 : B * (Q * R) = Q * (B * R) := by grind
  have e5 : B * (Q * (V * U + P) + (V * U + P + Q)) =
      Q * (V * (U * B)) + Q * (B * P) + V * (U * B) + B * P + Q * B := by grind
  have e6 : B * (Q * R + (V * U + P + Q)) = Q * (B * R) + V * (U * B) + B * P + Q * B := by grind
  have e7 : B * (Q * (V * U + P)) = Q * (V * (U * B)) + Q * (B * P) := by grind
  have e8 : (3 * k + V + 3) * U * B = 3 * k * (U * B) + V * (U * B) + 3 * (U * B) := by grind
  have e9 : Q * ((V * B + W) * U) = Q * (V * (U * B)) + Q * (W * U) := by grind
  constructor <;> omega

/-! ## Rounding -/

/-- The error of one rounding. -/
theorem rneQ_err (p a b : Nat) (hp : 0 < p) (hb : 0 < b) :
    2 ^ p * (b * rneQ p a b) ≤ 2 ^ p * a + (a + 2 ^ p * b) ∧
    2 ^ p * a ≤ 2 ^ p * (b * rneQ p a b) + (a + 2 ^ p * b) := by
  obtain ⟨e, q, r, h1, h2, h3, h4, h5⟩ := rneQ_parts p a b hp hb
  have hpp : 2 ^ p = 2 * 2 ^ (p - 1) := by
    rw [← Nat.pow_succ']; congr 1; omega
  -- half a unit in the last place
  have key : ∀ s, 2 * s ≤ b * 2 ^ e → 2 ^ p * s ≤ a + 2 ^ p * b := by
    intro s hs
    by_cases he : e = 0
    · subst he
      have : s ≤ b := by simp at hs; omega
      exact Nat.le_trans (Nat.mul_le_mul_left _ this) (by omega)
    · have hq := h4 (by omega)
      have : 2 ^ (p - 1) * (2 * s) ≤ q * (b * 2 ^ e) := Nat.mul_le_mul hq hs
      have e1 : 2 ^ p * s = 2 ^ (p - 1) * (2 * s) := by rw [hpp]; grind
      have e2 : q * (b * 2 ^ e) = b * 2 ^ e * q := Nat.mul_comm _ _
      omega
  rcases h5 with ⟨h5, h6⟩ | ⟨h5, h6⟩
  · have e1 : b * rneQ p a b + r = a := by rw [h5]; rw [h1]; grind
    have e2 : 2 ^ p * a = 2 ^ p * (b * rneQ p a b) + 2 ^ p * r := by
      rw [← Nat.mul_add, e1]
    have := key r h6
    omega
  · have e1 : b * rneQ p a b = a + (b * 2 ^ e - r) := by
      have : b * rneQ p a b = b * 2 ^ e * q + b * 2 ^ e := by rw [h5]; grind
      omega
    have e2 : 2 ^ p * (b * rneQ p a b) = 2 ^ p * a + 2 ^ p * (b * 2 ^ e - r) := by
      rw [← Nat.mul_add, e1]
    have := key (b * 2 ^ e - r) (by omega)
    omega

theorem rneQ_le (p a b j : Nat) (hp : 0 < p) (hb : 0 < b) (h : a ≤ b * 2 ^ j) : rneQ p a b ≤ 2 ^ j := by
  have h1 := rneQ_nearest p a b hp hb 1 j (Nat.one_lt_two_pow (by omega))
  rw [Nat.one_mul] at h1
  apply Nat.le_of_not_lt
  intro hlt
  have h2 : b * 2 ^ j < b * rneQ p a b := (Nat.mul_lt_mul_left hb).2 hlt
  omega

theorem roundQ_fin (f : Fmt) (a b j : Nat) (hp : 0 < f.p) (hb : 0 < b) (h : a ≤ b * 2 ^ j) (hj : j < f.top) :
    roundQ f false a b = .fin (rneQ f.p a b : Nat) := by
  unfold roundQ
  simp only
  have := rneQ_le f.p a b j hp hb h
  have h2 : 2 ^ j < 2 ^ f.top := Nat.pow_lt_pow_right (by omega) hj
  rw [if_neg (by omega)]
  simp

theorem ofInt_small (f : Fmt) (m e : Nat) (hm : m < 2 ^ f.p) (ht : m * 2 ^ e * 2 ^ f.K < 2 ^ f.top) :
    ofInt f ((m * 2 ^ e : Nat) : Int) = .fin ((m * 2 ^ e * 2 ^ f.K : Nat) : Int) := by
  unfold ofInt
  have h0 : ((m * 2 ^ e : Nat) : Int) * 2 ^ f.K = ((m * 2 ^ e * 2 ^ f.K : Nat) : Int) := by push_cast; rfl
  rw [h0]
  apply round_exact
  refine ⟨⟨m, e + f.K, hm, ?_⟩, ?_⟩
  · rw [Nat.pow_add, ← Nat.mul_assoc]; exact Int.natAbs_natCast _
  · exact (by rw [Int.natAbs_natCast]; exact ht)

theorem mul_nat (f : Fmt) (x y : Nat) : mul f (.fin (x : Int)) (.fin (y : Int)) = roundQ f false (x * y) (2 ^ f.K) := by
  simp only [mul, Int.natAbs_natCast]
  have h1 : decide ((x : Int) < 0) = false := by simp
  have h2 : decide ((y : Int) < 0) = false := by simp
  rw [h1, h2]; rfl

theorem add_nat (f : Fmt) (x y : Nat) : add f (.fin (x : Int)) (.fin (y : Int)) = roundQ f false (x + y) 1 := by
  simp only [add, round]
  have h1 : decide ((x : Int) + (y : Int) < 0) = false := by simp; omega
  rw [h1]
  congr 1

theorem div_nat (f : Fmt) (x y : Nat) (hy : 0 < y) :
    div f (.fin (x : Int)) (.fin (y : Int)) = roundQ f false (x * 2 ^ f.K) y := by
  simp only [div, Int.natAbs_natCast]
  rw [if_neg (by omega)]
  have h1 : decide ((x : Int) < 0) = false := by simp
  have h2 : decide ((y : Int) < 0) = false := by simp
  rw [h1, h2]; rfl

theorem bad_fin (f : Fmt) (x : Int) : bad f (.fin x) = false := by
  simp [bad, isNaN, isInf_fin]

/-- The product of an integer by a short number, when it is short. -/
theorem mul_exact (f : Fmt) (v m e : Nat) (h : v * m < 2 ^ f.p) (ht : v * m * 2 ^ e * 2 ^ f.K < 2 ^ f.top) :
    mul f (.fin ((v * 2 ^ f.K : Nat) : Int)) (.fin ((m * 2 ^ e * 2 ^ f.K : Nat) : Int)) =
      .fin ((v * m * 2 ^ e * 2 ^ f.K : Nat) : Int) := by
  rw [mul_nat]
  have h1 : v * 2 ^ f.K * (m * 2 ^ e * 2 ^ f.K) = v * m * 2 ^ (e + f.K) * 2 ^ f.K := by
    rw [Nat.pow_add]; grind
  have h2 := roundQ_scale f false (v * m * 2 ^ (e + f.K)) 1 (2 ^ f.K) (pow_pos' _)
  rw [Nat.one_mul] at h2
  rw [h1, h2]
  have h3 : v * m * 2 ^ e * 2 ^ f.K = v * m * 2 ^ (e + f.K) := by rw [Nat.pow_add, ← Nat.mul_assoc]
  rw [h3] at ht ⊢
  rw [roundQ_exact f false _ _ h ht]
  simp

/-- The sum of two integers, when it is short. -/
theorem add_exact (f : Fmt) (v d : Nat) (h : v + d < 2 ^ f.p) (ht : (v + d) * 2 ^ f.K < 2 ^ f.top) :
    add f (.fin ((v * 2 ^ f.K : Nat) : Int)) (.fin ((d * 2 ^ f.K : Nat) : Int)) =
      .fin (((v + d) * 2 ^ f.K : Nat) : Int) := by
  rw [add_nat, ← Nat.add_mul, roundQ_exact f false _ _ h ht]
  simp

/-! ## What the formats are required to be -/

/-- The bounds that the formats meet, for texts of up to `N` decimals. -/
structure Fits (f : Fmt) (N : Nat) : Prop where
  p5 : 5 ≤ f.p
  kp : f.p + 5 ≤ f.K
  top : f.K + f.p + 2 ≤ f.top
  five : 5 ^ N < 2 ^ f.p
  ten : 4 * N + f.K < f.top
  n3 : 3 * N + 2 ≤ 2 ^ f.p

theorem fits32 : Fits f32 10 := ⟨by decide, by decide, by decide, by decide, by decide, by decide⟩
theorem fits64 : Fits f64 22 := ⟨by decide, by decide, by decide, by decide, by decide, by decide⟩

theorem short_top {f : Fmt} {N : Nat} (h : Fits f N) {v : Nat} (hv : v < 2 ^ f.p) : v * 2 ^ f.K < 2 ^ f.top := by
  have h1 : v * 2 ^ f.K < 2 ^ f.p * 2 ^ f.K := (Nat.mul_lt_mul_right (pow_pos' _)).2 hv
  rw [← Nat.pow_add] at h1
  exact Nat.lt_of_lt_of_le h1 (Nat.pow_le_pow_right (by omega) (by have := h.top; omega))

theorem ofInt_digit {f : Fmt} {N : Nat} (h : Fits f N) (d : Nat) (hd : d ≤ 10) :
    ofInt f (d : Int) = .fin ((d * 2 ^ f.K : Nat) : Int) := by
  have hp : d < 2 ^ f.p := by
    have : 2 ^ 5 ≤ 2 ^ f.p := Nat.pow_le_pow_right (by omega) h.p5
    omega
  have := ofInt_small f d 0 hp (by simpa using short_top h hp)
  simpa using this

/-! ## The digits -/

theorem digit?_of (d : Nat) (h : d < 10) : digit? (Char.ofNat (48 + d)) = some d := by
  have : d = 0 ∨ d = 1 ∨ d = 2 ∨ d = 3 ∨ d = 4 ∨ d = 5 ∨ d = 6 ∨ d = 7 ∨ d = 8 ∨ d = 9 := by omega
  rcases this with rfl | rfl | rfl | rfl | rfl | rfl | rfl | rfl | rfl | rfl <;> rfl

theorem text_cons (d : Nat) (ds : List Nat) (rest : List Char) :
    text (d :: ds) ++ rest = Char.ofNat (48 + d) :: (text ds ++ rest) := rfl

/-- The number so far, after more digits. -/
def upTo (v : Nat) (ds : List Nat) : Nat := ds.foldl (fun n d => 10 * n + d) v

theorem upTo_cons (v d : Nat) (ds : List Nat) : upTo v (d :: ds) = upTo (10 * v + d) ds := rfl

theorem upTo_ge (ds : List Nat) : ∀ v, v ≤ upTo v ds := by
  induction ds with
  | nil => intro v; exact Nat.le_refl _
  | cons d ds ih => intro v; rw [upTo_cons]; have := ih (10 * v + d); omega

theorem upTo_split (ds : List Nat) : ∀ v, upTo v ds = v * 10 ^ ds.length + upTo 0 ds := by
  induction ds with
  | nil => intro v; simp [upTo]
  | cons d ds ih =>
    intro v
    rw [upTo_cons, upTo_cons, ih, ih (10 * 0 + d), List.length_cons, Nat.pow_succ']
    grind

theorem upTo_lt (ds : List Nat) (h : Digits ds) : upTo 0 ds < 10 ^ ds.length := by
  induction ds with
  | nil => simp [upTo]
  | cons d ds ih =>
    rw [upTo_cons, upTo_split, List.length_cons, Nat.pow_succ']
    have h1 := ih (fun x hx => h x (by simp [hx]))
    have h2 := h d (by simp)
    have h3 : (10 * 0 + d) * 10 ^ ds.length ≤ 9 * 10 ^ ds.length := Nat.mul_le_mul_right _ (by omega)
    omega

/-! ## The integral part -/

/-- One more digit. -/
theorem int_step {f : Fmt} {N : Nat} (h : Fits f N) (room : Nat) (cs : List Char) (v d : Nat) (c : Char) (hd : d < 10)
    (hv : 10 * v + d < 2 ^ f.p) :
    intLoop f (room + 1) (Char.ofNat (48 + d) :: cs) (.fin ((v * 2 ^ f.K : Nat) : Int)) c =
      intLoop f room cs (.fin (((10 * v + d) * 2 ^ f.K : Nat) : Int)) (Char.ofNat (48 + d)) := by
  have e10 : mul f (.fin ((v * 2 ^ f.K : Nat) : Int)) (ofInt f 10) = .fin (((10 * v) * 2 ^ f.K : Nat) : Int) := by
    have h1 := ofInt_digit h 10 (by omega)
    rw [show ((10 : Nat) : Int) = 10 from rfl] at h1
    rw [h1]
    have h2 := mul_exact f v 10 0 (by omega) (by simpa using short_top h (v := v * 10) (by omega))
    simp only [Nat.pow_zero, Nat.mul_one] at h2
    rw [h2, Nat.mul_comm v 10]
  have e11 : add f (.fin (((10 * v) * 2 ^ f.K : Nat) : Int)) (ofInt f (d : Int)) =
      .fin (((10 * v + d) * 2 ^ f.K : Nat) : Int) := by
    rw [ofInt_digit h d (by omega), add_exact f (10 * v) d hv (short_top h hv)]
  rw [intLoop]
  simp only [List.headD_cons, List.tail_cons, digit?_of d hd]
  rw [e10, bad_fin]
  simp only [Bool.false_eq_true, if_false]
  rw [e11, bad_fin]
  simp only [Bool.false_eq_true, if_false]

theorem int_digits {f : Fmt} {N : Nat} (h : Fits f N) (ds : List Nat) : ∀ (hd : Digits ds) (room v : Nat) (c : Char)
    (rest : List Char), ds.length ≤ room → upTo v ds < 2 ^ f.p →
    ∃ c', intLoop f room (text ds ++ rest) (.fin ((v * 2 ^ f.K : Nat) : Int)) c =
      intLoop f (room - ds.length) rest (.fin ((upTo v ds * 2 ^ f.K : Nat) : Int)) c' := by
  induction ds with
  | nil => intro _ room v c rest _ _; exact ⟨c, rfl⟩
  | cons d ds ih =>
    intro hd room v c rest hr hv
    obtain ⟨room, rfl⟩ : ∃ r, room = r + 1 := ⟨room - 1, by simp at hr; omega⟩
    rw [upTo_cons] at hv
    have h1 := upTo_ge ds (10 * v + d)
    obtain ⟨c', h2⟩ := ih (fun x hx => hd x (by simp [hx])) room (10 * v + d) (Char.ofNat (48 + d)) rest
      (by simpa using hr) hv
    refine ⟨c', ?_⟩
    rw [text_cons, int_step h room _ v d c (hd d (by simp)) (by omega), h2, upTo_cons]
    simp

/-! ## The decimal part -/

/-- The powers of ten that the decimals need. -/
theorem pow_exact {f : Fmt} {N : Nat} (h : Fits f N) (k : Nat) (hk : k < N) :
    mul f (.fin ((10 ^ k * 2 ^ f.K : Nat) : Int)) (ofInt f 10) = .fin ((10 ^ (k + 1) * 2 ^ f.K : Nat) : Int) := by
  have h1 := ofInt_digit h 10 (by omega)
  rw [show ((10 : Nat) : Int) = 10 from rfl] at h1
  rw [h1, mul_nat]
  have e1 : 10 ^ k * 2 ^ f.K * (10 * 2 ^ f.K) = 5 ^ (k + 1) * 2 ^ (k + 1 + f.K) * 2 ^ f.K := by
    have : 10 ^ (k + 1) = 5 ^ (k + 1) * 2 ^ (k + 1) := by rw [← Nat.mul_pow]
    rw [Nat.pow_add 2 (k + 1), ← Nat.mul_assoc (5 ^ (k + 1)), ← this, Nat.pow_succ]; grind
  have e2 : 10 ^ (k + 1) * 2 ^ f.K = 5 ^ (k + 1) * 2 ^ (k + 1 + f.K) := by
    have : 10 ^ (k + 1) = 5 ^ (k + 1) * 2 ^ (k + 1) := by rw [← Nat.mul_pow]
    rw [this, Nat.pow_add 2 (k + 1)]; grind
  have h2 := roundQ_scale f false (5 ^ (k + 1) * 2 ^ (k + 1 + f.K)) 1 (2 ^ f.K) (pow_pos' _)
  rw [Nat.one_mul] at h2
  rw [e1, h2, e2]
  rw [roundQ_exact f false]
  · simp
  · exact Nat.lt_of_le_of_lt (Nat.pow_le_pow_right (by omega) (by omega)) h.five
  · rw [← e2]
    have h3 : 10 ^ (k + 1) * 2 ^ f.K ≤ 2 ^ (4 * N) * 2 ^ f.K := by
      apply Nat.mul_le_mul_right
      rw [Nat.pow_mul]
      exact Nat.le_trans (Nat.pow_le_pow_left (by omega) _) (Nat.pow_le_pow_right (by omega) (by omega))
    rw [← Nat.pow_add] at h3
    exact Nat.lt_of_le_of_lt h3 (Nat.pow_lt_pow_right (by omega) h.ten)

/-- How close the decimals are to their value. -/
def Close (f : Fmt) (k P W : Nat) : Prop :=
  2 ^ f.p * (10 ^ k * P) ≤ 2 ^ f.p * (W * 2 ^ f.K) + 3 * k * 2 ^ f.K * 10 ^ k ∧
  2 ^ f.p * (W * 2 ^ f.K) ≤ 2 ^ f.p * (10 ^ k * P) + 3 * k * 2 ^ f.K * 10 ^ k

theorem close_le {f : Fmt} {N : Nat} (h : Fits f N) (k P W : Nat) (hk : k ≤ N) (hW : W < 10 ^ k)
    (hc : Close f k P W) : P ≤ 2 * 2 ^ f.K := by
  obtain ⟨h1, _⟩ := hc
  have h3 := h.n3
  generalize 2 ^ f.p = Q at *
  generalize hU : 2 ^ f.K = U at *
  generalize 10 ^ k = B at *
  have a1 : W * U ≤ B * U := Nat.mul_le_mul_right _ (by omega)
  have a2 : Q * (W * U) ≤ Q * (B * U) := Nat.mul_le_mul_left _ a1
  have a3 : 3 * k * (B * U) ≤ Q * (B * U) := Nat.mul_le_mul_right _ (by omega)
  have e1 : 3 * k * U * B = 3 * k * (B * U) := by grind
  have a4 : Q * (B * P) ≤ Q * (B * (2 * U)) := by
    have : Q * (B * (2 * U)) = 2 * (Q * (B * U)) := by grind
    omega
  have a5 := Nat.le_of_mul_le_mul_left a4 (by omega)
  exact Nat.le_of_mul_le_mul_left a5 (by omega)

theorem twenty {f : Fmt} {N : Nat} (h : Fits f N) : 20 * 2 ^ f.p ≤ 2 ^ f.K := by
  have h1 : 2 ^ (f.p + 5) ≤ 2 ^ f.K := Nat.pow_le_pow_right (by omega) h.kp
  rw [Nat.pow_add] at h1
  omega

/-- One more decimal. -/
theorem dec_step {f : Fmt} {N : Nat} (h : Fits f N) (room : Nat) (cs : List Char) (k P W d : Nat) (c : Char)
    (hd : d < 10) (hk : k < N) (hW : W < 10 ^ k) (hc : Close f k P W) :
    ∃ R, Close f (k + 1) R (10 * W + d) ∧
    decLoop f (room + 1) (Char.ofNat (48 + d) :: cs) (.fin (P : Int)) (.fin ((10 ^ k * 2 ^ f.K : Nat) : Int)) c =
      decLoop f room cs (.fin (R : Int)) (.fin ((10 ^ (k + 1) * 2 ^ f.K : Nat) : Int)) (Char.ofNat (48 + d)) := by
  have hp : 0 < f.p := by have := h.p5; omega
  have h10 : 0 < 10 ^ (k + 1) := Nat.pow_pos (by omega)
  have hPle := close_le h k P W (by omega) hW hc
  have hd10 : d * 2 ^ f.K ≤ 10 ^ (k + 1) * 2 ^ f.K := by
    apply Nat.mul_le_mul_right
    rw [Nat.pow_succ]
    have : 0 < 10 ^ k := Nat.pow_pos (by omega)
    omega
  have ed : div f (ofInt f (d : Int)) (.fin ((10 ^ (k + 1) * 2 ^ f.K : Nat) : Int)) =
      .fin ((rneQ f.p (d * 2 ^ f.K) (10 ^ (k + 1)) : Nat) : Int) := by
    rw [ofInt_digit h d (by omega), div_nat _ _ _ (Nat.mul_pos h10 (pow_pos' _)), roundQ_scale _ _ _ _ _ (pow_pos' _)]
    exact roundQ_fin f _ _ f.K hp h10 hd10 (by have := h.top; omega)
  have ht := rneQ_le f.p (d * 2 ^ f.K) (10 ^ (k + 1)) f.K hp h10 hd10
  have herr := rneQ_err f.p (d * 2 ^ f.K) (10 ^ (k + 1)) hp h10
  generalize rneQ f.p (d * 2 ^ f.K) (10 ^ (k + 1)) = t at *
  have hs : P + t ≤ 1 * 2 ^ (f.K + 2) := by rw [Nat.pow_add]; omega
  have ea : add f (.fin (P : Int)) (.fin (t : Int)) = .fin ((rneQ f.p (P + t) 1 : Nat) : Int) := by
    rw [add_nat]
    exact roundQ_fin f _ _ (f.K + 2) hp (by omega) hs (by have := h.top; have := h.p5; omega)
  have herr2 := rneQ_err f.p (P + t) 1 hp (by omega)
  generalize rneQ f.p (P + t) 1 = R at *
  refine ⟨R, ?_, ?_⟩
  · obtain ⟨hc1, hc2⟩ := hc
    have h20 := twenty h
    have hn3 := h.n3
    have hQ := pow_pos' f.p
    have hb := Nat.pow_pos (n := k) (show 0 < 10 by omega)
    have hst := step_arith ((2 ^ f.K : Nat) : Int) ((10 ^ (k + 1) : Nat) : Int) ((2 ^ f.p : Nat) : Int) P t R W d k
      ((10 ^ k : Nat) : Int) (by rw [Nat.pow_succ]; push_cast; exact Int.mul_comm _ _) (by omega) (by omega) (by omega)
      (by omega) (by omega) (by omega) (by omega) (by omega) (by omega)
    simp only [Nat.one_mul, Nat.mul_one] at herr2
    specialize hst (by exact_mod_cast herr.1) (by exact_mod_cast herr.2) (by exact_mod_cast herr2.1)
      (by exact_mod_cast herr2.2) (by exact_mod_cast hc1) (by exact_mod_cast hc2)
    exact ⟨by exact_mod_cast hst.1, by exact_mod_cast hst.2⟩
  · rw [decLoop]
    simp only [List.headD_cons, List.tail_cons, digit?_of d hd]
    rw [pow_exact h k hk, bad_fin]
    simp only [Bool.false_eq_true, if_false]
    rw [ed, ea]

theorem dec_digits {f : Fmt} {N : Nat} (h : Fits f N) (fs : List Nat) : ∀ (hd : Digits fs) (room k P W : Nat) (c : Char)
    (rest : List Char), fs.length ≤ room → k + fs.length ≤ N → W < 10 ^ k → Close f k P W →
    ∃ R c', Close f (k + fs.length) R (upTo W fs) ∧
      decLoop f room (text fs ++ rest) (.fin (P : Int)) (.fin ((10 ^ k * 2 ^ f.K : Nat) : Int)) c =
        decLoop f (room - fs.length) rest (.fin (R : Int)) (.fin ((10 ^ (k + fs.length) * 2 ^ f.K : Nat) : Int)) c' := by
  induction fs with
  | nil => intro _ room k P W c rest _ _ _ hc; exact ⟨P, c, hc, rfl⟩
  | cons d fs ih =>
    intro hd room k P W c rest hr hN hW hc
    obtain ⟨room, rfl⟩ : ∃ r, room = r + 1 := ⟨room - 1, by simp at hr; omega⟩
    simp only [List.length_cons] at hN hr
    have hd10 := hd d (by simp)
    obtain ⟨R, hR, h1⟩ := dec_step h room (text fs ++ rest) k P W d c hd10 (by omega) hW hc
    obtain ⟨R', c', hR', h2⟩ := ih (fun x hx => hd x (by simp [hx])) room (k + 1) R (10 * W + d)
      (Char.ofNat (48 + d)) rest (by omega) (by omega) (by rw [Nat.pow_succ]; omega) hR
    refine ⟨R', c', ?_, ?_⟩
    · rw [upTo_cons, List.length_cons, show k + (fs.length + 1) = k + 1 + fs.length by omega]; exact hR'
    · rw [text_cons, h1, h2, List.length_cons, show k + (fs.length + 1) = k + 1 + fs.length by omega,
        show room + 1 - (fs.length + 1) = room - fs.length by omega]

end Verif.FloatNum
