import Verif.Proof.TextFloat2
set_option maxRecDepth 8000
set_option exponentiation.threshold 3000
/-!
# Relative error of the exponents (C68)
-/
namespace Verif.FloatNum
open Verif.Spec.TextFloat

/-- The relative error of one rounding of a number that is not subnormal. -/
theorem rneQ_rel (p a b : Nat) (hp : 0 < p) (hb : 0 < b) (ha : b * 2 ^ (p - 1) ≤ a) :
    (2 ^ p - 1) * a ≤ 2 ^ p * (b * rneQ p a b) ∧ 2 ^ p * (b * rneQ p a b) ≤ (2 ^ p + 1) * a := by
  obtain ⟨e, q, r, h1, h2, h3, h4, h5⟩ := rneQ_parts p a b hp hb
  have hpp : 2 ^ p = 2 * 2 ^ (p - 1) := by
    rw [← Nat.pow_succ']; congr 1; omega
  have key : ∀ s, 2 * s ≤ b * 2 ^ e → 2 ^ p * s ≤ a := by
    intro s hs
    have e1 : 2 ^ p * s = 2 ^ (p - 1) * (2 * s) := by rw [hpp]; grind
    by_cases he : e = 0
    · subst he
      have h6 : 2 ^ (p - 1) * (2 * s) ≤ 2 ^ (p - 1) * b := Nat.mul_le_mul_left _ (by simpa using hs)
      have e2 : 2 ^ (p - 1) * b = b * 2 ^ (p - 1) := Nat.mul_comm _ _
      omega
    · have hq := h4 (by omega)
      have : 2 ^ (p - 1) * (2 * s) ≤ q * (b * 2 ^ e) := Nat.mul_le_mul hq hs
      have e2 : q * (b * 2 ^ e) = b * 2 ^ e * q := Nat.mul_comm _ _
      omega
  have e3 : (2 ^ p - 1) * a = 2 ^ p * a - a := by rw [Nat.sub_mul, Nat.one_mul]
  have e4 : (2 ^ p + 1) * a = 2 ^ p * a + a := by rw [Nat.add_mul, Nat.one_mul]
  rcases h5 with ⟨h5, h6⟩ | ⟨h5, h6⟩
  · have e1 : b * rneQ p a b + r = a := by rw [h5]; rw [h1]; grind
    have e2 : 2 ^ p * a = 2 ^ p * (b * rneQ p a b) + 2 ^ p * r := by
      rw [← Nat.mul_add, e1]
    have := key r h6
    omega
  · have e1 : b * rneQ p a b = a + (b * 2 ^ e - r) := by
      have : b * rneQ p a b = b * 2 ^ e * q + b * 2 ^ e := by rw [h5]; grind
      omega
    have e2 : 2 ^ p * (b * rneQ p a b) = 2 ^ p * a + 2 ^ p * (b * 2 ^ e - r) := by
      rw [← Nat.mul_add, e1]
    have := key (b * 2 ^ e - r) (by omega)
    omega

/-- `R` is `A / B` up to `j` roundings. -/
def Rel (Q j R A B : Nat) : Prop := (Q - 1) ^ j * A ≤ Q ^ j * (R * B) ∧ Q ^ j * (R * B) ≤ (Q + 1) ^ j * A

theorem rel_mono {Q j R A B : Nat} (n : Nat) (h : Rel Q j R A B) : Rel Q (j + n) R A B := by
  obtain ⟨h1, h2⟩ := h
  constructor
  · have := Nat.mul_le_mul (Nat.pow_le_pow_left (Nat.sub_le Q 1) n) h1
    calc (Q - 1) ^ (j + n) * A = (Q - 1) ^ n * ((Q - 1) ^ j * A) := by rw [Nat.pow_add]; grind
      _ ≤ Q ^ n * (Q ^ j * (R * B)) := this
      _ = _ := by rw [Nat.pow_add]; grind
  · have := Nat.mul_le_mul (Nat.pow_le_pow_left (Nat.le_add_right Q 1) n) h2
    calc Q ^ (j + n) * (R * B) = Q ^ n * (Q ^ j * (R * B)) := by rw [Nat.pow_add]; grind
      _ ≤ (Q + 1) ^ n * ((Q + 1) ^ j * A) := this
      _ = _ := by rw [Nat.pow_add]; grind

/-- The product before its rounding. -/
theorem rel_prod {Q j i R L A B a b T : Nat} (h : Rel Q j R A B) (hL : Rel Q i L (T * a) b) :
    Rel Q (j + i) (R * L) (A * a * T) (B * b) := by
  obtain ⟨h1, h2⟩ := h
  obtain ⟨h3, h4⟩ := hL
  constructor
  · calc (Q - 1) ^ (j + i) * (A * a * T) = ((Q - 1) ^ j * A) * ((Q - 1) ^ i * (T * a)) := by rw [Nat.pow_add]; grind
      _ ≤ (Q ^ j * (R * B)) * (Q ^ i * (L * b)) := Nat.mul_le_mul h1 h3
      _ = _ := by rw [Nat.pow_add]; grind
  · calc Q ^ (j + i) * (R * L * (B * b)) = (Q ^ j * (R * B)) * (Q ^ i * (L * b)) := by rw [Nat.pow_add]; grind
      _ ≤ ((Q + 1) ^ j * A) * ((Q + 1) ^ i * (T * a)) := Nat.mul_le_mul h2 h4
      _ = _ := by rw [Nat.pow_add]; grind

/-- One rounding of a quotient by `T`. -/
theorem rel_round {Q j P r A B T : Nat} (hT : 0 < T) (h : Rel Q j P (A * T) B)
    (h1 : (Q - 1) * P ≤ Q * (T * r)) (h2 : Q * (T * r) ≤ (Q + 1) * P) : Rel Q (j + 1) r A B := by
  obtain ⟨h3, h4⟩ := h
  constructor
  · apply Nat.le_of_mul_le_mul_left _ hT
    calc T * ((Q - 1) ^ (j + 1) * A) = (Q - 1) * ((Q - 1) ^ j * (A * T)) := by rw [Nat.pow_succ]; grind
      _ ≤ (Q - 1) * (Q ^ j * (P * B)) := Nat.mul_le_mul_left _ h3
      _ = (Q ^ j * B) * ((Q - 1) * P) := by grind
      _ ≤ (Q ^ j * B) * (Q * (T * r)) := Nat.mul_le_mul_left _ h1
      _ = _ := by rw [Nat.pow_succ]; grind
  · apply Nat.le_of_mul_le_mul_left _ hT
    calc T * (Q ^ (j + 1) * (r * B)) = (Q ^ j * B) * (Q * (T * r)) := by rw [Nat.pow_succ]; grind
      _ ≤ (Q ^ j * B) * ((Q + 1) * P) := Nat.mul_le_mul_left _ h2
      _ = (Q + 1) * (Q ^ j * (P * B)) := by grind
      _ ≤ (Q + 1) * ((Q + 1) ^ j * (A * T)) := Nat.mul_le_mul_left _ h4
      _ = _ := by rw [Nat.pow_succ]; grind

/-- Up to 25 roundings change a number by less than a factor of 2. -/
def Tame (Q : Nat) : Prop := ∀ j, j < 26 → (Q + 1) ^ j ≤ 2 * Q ^ j ∧ Q ^ j ≤ 2 * (Q - 1) ^ j

theorem tame32 : Tame (2 ^ f32.p) := by
  unfold Tame; decide +kernel
theorem tame64 : Tame (2 ^ f64.p) := by
  unfold Tame; decide +kernel

theorem rel_bounds {Q j P A B : Nat} (hQ : 1 < Q) (ht : Tame Q) (hj : j < 26) (h : Rel Q j P A B) :
    A ≤ 2 * (P * B) ∧ P * B ≤ 2 * A := by
  obtain ⟨h1, h2⟩ := h
  obtain ⟨h3, h4⟩ := ht j hj
  constructor
  · apply Nat.le_of_mul_le_mul_left _ (Nat.pow_pos (n := j) (show 0 < Q - 1 by omega))
    calc (Q - 1) ^ j * A ≤ Q ^ j * (P * B) := h1
      _ ≤ 2 * (Q - 1) ^ j * (P * B) := Nat.mul_le_mul_right _ h4
      _ = _ := by grind
  · apply Nat.le_of_mul_le_mul_left _ (Nat.pow_pos (n := j) (show 0 < Q by omega))
    calc Q ^ j * (P * B) ≤ (Q + 1) ^ j * A := h2
      _ ≤ 2 * Q ^ j * A := Nat.mul_le_mul_right _ h3
      _ = _ := by grind

/-- Rounding a quotient by `T` to the format: `A / B` is neither close to the subnormal numbers nor to the largest. -/
theorem round_rel {f : Fmt} (hp : 1 < f.p) (htop : 2 < f.top) (ht : Tame (2 ^ f.p)) {j P A B T : Nat} (hT : 0 < T) (hB : 0 < B)
    (hj : j < 26) (h : Rel (2 ^ f.p) j P (A * T) B) (hlo : 2 ^ f.p * B ≤ A) (hhi : A ≤ B * 2 ^ (f.top - 2)) :
    ∃ r : Nat, roundQ f false P T = .fin (r : Int) ∧ Rel (2 ^ f.p) (j + 1) r A B := by
  have hQ : 1 < 2 ^ f.p := Nat.one_lt_two_pow (by omega)
  obtain ⟨b1, b2⟩ := rel_bounds hQ ht hj h
  have hpp : 2 ^ f.p = 2 * 2 ^ (f.p - 1) := by
    rw [← Nat.pow_succ']; congr 1; omega
  have htt : 2 ^ (f.top - 1) = 2 * 2 ^ (f.top - 2) := by
    rw [← Nat.pow_succ']; congr 1; omega
  have l1 : T * 2 ^ (f.p - 1) ≤ P := by
    apply Nat.le_of_mul_le_mul_left _ (show 0 < 2 * B by omega)
    calc 2 * B * (T * 2 ^ (f.p - 1)) = (2 * 2 ^ (f.p - 1) * B) * T := by grind
      _ = 2 ^ f.p * B * T := by rw [← hpp]
      _ ≤ A * T := Nat.mul_le_mul_right _ hlo
      _ ≤ 2 * (P * B) := b1
      _ = _ := by grind
  have l2 : P ≤ T * 2 ^ (f.top - 1) := by
    apply Nat.le_of_mul_le_mul_left _ hB
    calc B * P = P * B := Nat.mul_comm _ _
      _ ≤ 2 * (A * T) := b2
      _ ≤ 2 * (B * 2 ^ (f.top - 2) * T) := Nat.mul_le_mul_left _ (Nat.mul_le_mul_right _ hhi)
      _ = B * (T * (2 * 2 ^ (f.top - 2))) := by grind
      _ = _ := by rw [htt]
  obtain ⟨r1, r2⟩ := rneQ_rel f.p P T (by omega) hT l1
  exact ⟨rneQ f.p P T, roundQ_fin f P T (f.top - 1) (by omega) hT l2 (by omega), rel_round hT h r1 r2⟩

/-! ## The steps of `AddExponent` -/

/-- `10 ^ n` for a positive exponent `n`, 1 for a negative one. -/
def up (neg : Bool) (n : Nat) : Nat := if neg then 1 else 10 ^ n
/-- `10 ^ n` for a negative exponent `- n`, 1 for a positive one. -/
def dn (neg : Bool) (n : Nat) : Nat := if neg then 10 ^ n else 1

theorem up_add (neg : Bool) (m n : Nat) : up neg (m + n) = up neg m * up neg n := by
  cases neg <;> simp [up, Nat.pow_add]
theorem dn_add (neg : Bool) (m n : Nat) : dn neg (m + n) = dn neg m * dn neg n := by
  cases neg <;> simp [dn, Nat.pow_add]
theorem dn_pos (neg : Bool) (n : Nat) : 0 < dn neg n := by
  cases neg <;> simp [dn, Nat.pow_pos]

/-- The number, times every power of ten up to the exponent, is in the range of the format. -/
def InRange (f : Fmt) (neg : Bool) (v k0 : Nat) : Prop := ∀ m, m ≤ k0 →
  2 ^ f.p * dn neg m ≤ v * 2 ^ f.K * up neg m ∧ v * 2 ^ f.K * up neg m ≤ dn neg m * 2 ^ (f.top - 2)

/-- The literals are rounded at most twice. -/
def Lits (f : Fmt) (neg : Bool) (steps : List Nat) : Prop := ∀ s ∈ steps,
  ∃ L : Nat, literal f neg s = .fin (L : Int) ∧ Rel (2 ^ f.p) 2 L (2 ^ f.K * up neg s) (dn neg s)

/-- What has been done of the exponent. -/
def Done (f : Fmt) (neg : Bool) (v k0 j : Nat) (s : Flt × Nat) : Prop :=
  ∃ R m : Nat, s.1 = .fin (R : Int) ∧ m + s.2 = k0 ∧ Rel (2 ^ f.p) j R (v * 2 ^ f.K * up neg m) (dn neg m)

theorem done_step {f : Fmt} {neg : Bool} {v k0 : Nat} (hp : 1 < f.p) (htop : 2 < f.top) (ht : Tame (2 ^ f.p)) (hr : InRange f neg v k0)
    {j : Nat} (hj : j + 3 < 26) {s : Flt × Nat} (h : Done f neg v k0 j s) (n : Nat) (hl : Lits f neg [n]) :
    Done f neg v k0 (j + 3) (checkStep f neg s n) ∧ (checkStep f neg s n).2 = if n ≤ s.2 then s.2 - n else s.2 := by
  obtain ⟨R, m, h1, h2, h3⟩ := h
  unfold checkStep
  by_cases hn : n ≤ s.2
  · simp only [ge_iff_le, hn, if_true, and_true]
    obtain ⟨L, hL, hL'⟩ := hl n (by simp)
    have hpr := rel_prod h3 hL'
    rw [show v * 2 ^ f.K * up neg m * up neg n * 2 ^ f.K = (v * 2 ^ f.K * up neg (m + n)) * 2 ^ f.K by
      rw [up_add]; grind, ← dn_add] at hpr
    obtain ⟨hlo, hhi⟩ := hr (m + n) (by omega)
    obtain ⟨r, hr1, hr2⟩ := round_rel hp htop ht (Nat.pow_pos (show 0 < 2 by omega)) (dn_pos _ _) (by omega) hpr hlo hhi
    refine ⟨r, m + n, ?_, ?_, hr2⟩
    · simp only [h1, hL]; rw [mul_nat, hr1]
    · simp only; omega
  · simp only [ge_iff_le, hn, if_false, and_true]
    exact ⟨R, m, h1, h2, rel_mono 3 h3⟩

/-- Every step, when each is at least half of what was left. -/
theorem done_steps {f : Fmt} {neg : Bool} {v k0 : Nat} (hp : 1 < f.p) (htop : 2 < f.top) (ht : Tame (2 ^ f.p)) (hr : InRange f neg v k0)
    (steps : List Nat) : ∀ (j : Nat) (s : Flt × Nat) (l : Nat), j + 3 * steps.length < 26 → Lits f neg steps →
    steps = (List.range steps.length).reverse.map (fun i => 2 ^ (i + l)) → Done f neg v k0 j s →
    s.2 < 2 ^ (steps.length + l) →
    Done f neg v k0 (j + 3 * steps.length) (steps.foldl (checkStep f neg) s) ∧ (steps.foldl (checkStep f neg) s).2 < 2 ^ l := by
  induction steps with
  | nil => intro j s l _ _ _ h hs; exact ⟨h, by simpa using hs⟩
  | cons n steps ih =>
    intro j s l hj hl hst h hs
    simp only [List.length_cons] at hj hst hs ⊢
    rw [List.range_succ, List.reverse_append] at hst
    simp only [List.reverse_cons, List.reverse_nil, List.nil_append, List.cons_append, List.map_cons,
      List.cons.injEq] at hst
    obtain ⟨hn, hst⟩ := hst
    obtain ⟨h1, h2⟩ := done_step hp htop ht hr (by omega) h n (fun s hs => hl s (by simp at hs; simp [hs]))
    have e : 2 ^ (steps.length + 1 + l) = 2 * n := by
      rw [hn, ← Nat.pow_succ']; congr 1; omega
    have h3 : (checkStep f neg s n).2 < 2 ^ (steps.length + l) := by
      rw [h2, ← hn]
      split <;> omega
    have := ih (j + 3) (checkStep f neg s n) l (by omega) (fun s hs => hl s (by simp [hs])) hst h1 h3
    rw [show j + 3 * (steps.length + 1) = j + 3 + 3 * steps.length by omega]
    exact this

theorem add_exponent_rel {f : Fmt} {N : Nat} (h : Fits f N) (wide neg : Bool) {v k : Nat} (htop : 2 < f.top)
    (ht : Tame (2 ^ f.p)) (hr : InRange f neg v k) (hk : k < if wide then 512 else 64)
    (hl : Lits f neg ((if wide then [256, 128, 64] else []) ++ [32, 16, 8, 4, 2])) :
    ∃ y : Nat, addExponent f wide (.fin ((v * 2 ^ f.K : Nat) : Int)) k (!neg) = .fin (y : Int) ∧
      Rel (2 ^ f.p) 25 y (v * 2 ^ f.K * up neg k) (dn neg k) := by
  have hp : 1 < f.p := by have := h.p5; omega
  have h0 : Done f neg v k 0 (.fin ((v * 2 ^ f.K : Nat) : Int), k) :=
    ⟨v * 2 ^ f.K, 0, rfl, by simp, by simp [Rel, up, dn]⟩
  have hfold : ∃ s : Flt × Nat, ((if wide then [256, 128, 64] else []) ++ [32, 16, 8, 4, 2]).foldl (checkStep f neg)
      (.fin ((v * 2 ^ f.K : Nat) : Int), k) = s ∧ Done f neg v k 24 s ∧ s.2 < 2 := by
    refine ⟨_, rfl, ?_⟩
    cases wide
    · have := done_steps hp htop ht hr [32, 16, 8, 4, 2] 0 _ 1 (by decide) hl (by decide) h0 (by simpa using hk)
      obtain ⟨⟨R, m, a, b, c⟩, d⟩ := this
      exact ⟨⟨R, m, a, b, rel_mono 9 c⟩, by simpa using d⟩
    · have := done_steps hp htop ht hr [256, 128, 64, 32, 16, 8, 4, 2] 0 _ 1 (by decide) hl (by decide) h0 (by simpa using hk)
      exact ⟨this.1, by simpa using this.2⟩
  obtain ⟨s, hs, ⟨R, m, hR, hm, hrel⟩, hs2⟩ := hfold
  rw [List.foldl_append] at hs
  have h10 := ofInt_digit h 10 (by omega)
  rw [show ((10 : Nat) : Int) = 10 from rfl] at h10
  have hK : 0 < 2 ^ f.K := Nat.pow_pos (by omega)
  unfold addExponent
  simp only [Bool.not_not]
  rw [hs]
  by_cases h1 : s.2 = 1
  · rw [if_pos (by omega), hR, h10]
    obtain ⟨hlo, hhi⟩ := hr k (by omega)
    have ek : k = m + 1 := by omega
    cases neg
    · simp only [Bool.not_false, if_true]
      have hpr := rel_prod (a := 10) (b := 1) (T := 2 ^ f.K) (L := 10 * 2 ^ f.K) (i := 0) hrel
        (by constructor <;> (simp; omega))
      rw [show v * 2 ^ f.K * up false m * 10 * 2 ^ f.K = (v * 2 ^ f.K * up false k) * 2 ^ f.K by
        rw [ek, up_add]; simp [up]; grind, show dn false m * 1 = dn false k by simp [dn]] at hpr
      obtain ⟨r, hr1, hr2⟩ := round_rel hp htop ht hK (dn_pos _ _) (by omega) hpr hlo hhi
      exact ⟨r, by rw [mul_nat, hr1], hr2⟩
    · simp only [Bool.not_true, Bool.false_eq_true, if_false]
      have hpr := rel_prod (a := 10) (b := 10) (T := 2 ^ f.K) (L := 2 ^ f.K) (i := 0) hrel
        (by constructor <;> (simp))
      rw [show v * 2 ^ f.K * up true m * 10 * 2 ^ f.K = (v * 2 ^ f.K * up true k) * (10 * 2 ^ f.K) by
        simp [up]; grind, show dn true m * 10 = dn true k by rw [ek]; simp [dn, Nat.pow_succ]] at hpr
      obtain ⟨r, hr1, hr2⟩ := round_rel hp htop ht (T := 10 * 2 ^ f.K) (by omega) (dn_pos _ _) (by omega) hpr hlo hhi
      exact ⟨r, by rw [div_nat _ _ _ (by omega), hr1], hr2⟩
  · rw [if_neg (by omega), hR]
    have : m = k := by omega
    subst this
    exact ⟨R, rfl, rel_mono 1 hrel⟩

/-- A decidable form of `Lits`. -/
def litOk (f : Fmt) (neg : Bool) (s : Nat) : Bool :=
  match literal f neg s with
  | .fin x => decide (0 ≤ x) && decide ((2 ^ f.p - 1) ^ 2 * (2 ^ f.K * up neg s) ≤ (2 ^ f.p) ^ 2 * (x.toNat * dn neg s)) &&
      decide ((2 ^ f.p) ^ 2 * (x.toNat * dn neg s) ≤ (2 ^ f.p + 1) ^ 2 * (2 ^ f.K * up neg s))
  | _ => false

theorem lits_of {f : Fmt} {neg : Bool} {steps : List Nat} (h : steps.all (litOk f neg) = true) : Lits f neg steps := by
  intro s hs
  rw [List.all_eq_true] at h
  have h1 := h s hs
  unfold litOk at h1
  split at h1
  · rename_i x hx
    simp only [Bool.and_eq_true, decide_eq_true_eq] at h1
    obtain ⟨⟨a, b⟩, c⟩ := h1
    exact ⟨x.toNat, by rw [hx]; congr 1; omega, b, c⟩
  · simp at h1

theorem lits32 (neg : Bool) : Lits f32 neg [32, 16, 8, 4, 2] := by
  apply lits_of; cases neg <;> decide +kernel
theorem lits64 (neg : Bool) : Lits f64 neg [256, 128, 64, 32, 16, 8, 4, 2] := by
  apply lits_of; cases neg <;> decide +kernel

/-- Digits and an exponent: the number before the exponent is exact. -/
theorem exp_text {f : Fmt} {N : Nat} (h : Fits f N) (wide : Bool) (room : Nat) (ds es : List Nat) (hd : Digits ds)
    (he : Digits es) (hl : ds.length + es.length + 3 ≤ room) (hk : number es < 512)
    (hv : number ds < 2 ^ f.p) (c : Char) (hc : c = 'E' ∨ c = 'e') (sg : List Char) (s : Int)
    (hs : Sign sg s) (y : Int)
    (hy : addExponent f wide (.fin ((number ds * 2 ^ f.K : Nat) : Int)) (number es) (s = 1) = .fin y) :
    afterSign f wide room (text ds ++ c :: (sg ++ text es)) = (true, .fin y) := by
  obtain ⟨c', h1⟩ := int_digits h ds hd room 0 '\x00' (c :: (sg ++ text es)) (by omega) hv
  rw [Nat.zero_mul, show room - ds.length = (room - ds.length - 1) + 1 by omega,
    int_stop _ _ _ _ _ _ (Or.inr hc)] at h1
  have hdp : ∀ x, decimalPhase f ⟨x, true, false, c, c :: (sg ++ text es), room - ds.length - 1 + 1⟩ =
      ⟨x, true, false, c, c :: (sg ++ text es), room - ds.length - 1 + 1⟩ := by
    intro x
    unfold decimalPhase
    rw [if_neg]
    rcases hc with rfl | rfl <;> simp
  have hsl : sg.length ≤ 1 := by cases hs <;> simp
  rw [afterSign_of h1]
  simp only [Bool.false_eq_true, if_false]
  rw [hdp, exponentPhase_eq f wide _ c hc sg s hs]
  · have hx := exp_digits es he (room - ds.length - 1 + 1 - 1 - sg.length) 0 [] (by omega)
      (by have : upTo 0 es = number es := rfl; omega)
    rw [List.append_nil, show room - ds.length - 1 + 1 - 1 - sg.length - es.length =
      (room - ds.length - 1 + 1 - 1 - sg.length - es.length - 1) + 1 by omega, exp_end] at hx
    rw [hx]
    simp only [Bool.false_eq_true, if_false]
    rw [show upTo 0 ds = number ds from rfl, show upTo 0 es = number es from rfl, hy, bad_fin]
    rfl
  · intro _
    have := head_ok es he [] (by intro _; decide)
    rwa [List.append_nil] at this

end Verif.FloatNum
