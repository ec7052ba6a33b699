import Verif.Proof.FloatPrint4
import Verif.Model.FloatNum
/-! ## C108: printing floating point numbers -/
set_option linter.unusedSimpArgs false
namespace Verif.FloatPrint
open Verif.Spec.FloatPrint

private theorem prec_nonneg (wide : Bool) (f : Fmt) : 0 ≤ precision wide f := by
  rw [precision]; repeat' split
  all_goals omega

private theorem prec_le (wide : Bool) (f : Fmt) (h : f.precision ≤ 255) : precision wide f ≤ 255 := by
  rw [precision]; repeat' split
  all_goals omega

/-- The size and the text without spaces. -/
private theorem plain_ok (rnd : Rat → Rat) (wide : Bool) (f : Fmt) (x : Num) :
    ((plain rnd wide f x).2.length : Int) ≤ (plain rnd wide f x).1 ∧ (plain rnd wide f x).1 ≤ room f ∧
    ('!' ∉ (plain rnd wide f x).2 → ((plain rnd wide f x).2.length : Int) = (plain rnd wide f x).1) := by
  have hr : 1 ≤ room f := by rw [room]; split <;> omega
  cases x with
  | nan =>
    rw [plain]; split
    · exact ⟨by decide, hr, fun _ => rfl⟩
    · exact ⟨by decide, by simp only; omega, fun _ => rfl⟩
  | inf b =>
    rw [plain]; split
    · exact ⟨by decide, hr, fun _ => rfl⟩
    · exact ⟨by simp, by simp only; omega, fun _ => rfl⟩
  | fin x =>
    rw [plain]
    split
    · exact ⟨by decide, hr, fun _ => rfl⟩
    · simp only
      generalize hs : decide (x < 0) = s
      have key := choose_ok rnd wide f.floatNotation s (if s then -x else x) (precision wide f) (room f) (prec_nonneg wide f)
      generalize choose rnd wide f.floatNotation s (if s then -x else x) (precision wide f) (room f) = c at key ⊢
      obtain ⟨sz, m⟩ := c
      simp only at key ⊢
      rcases key with ⟨rfl, rfl | rfl⟩ | ⟨y, e, p, rfl, hp, he, h1, h2⟩
      · exact ⟨by simp, hr, fun _ => rfl⟩
      · exact ⟨by simp, hr, fun _ => rfl⟩
      · simp only
        obtain ⟨a, b, c⟩ := body_length rnd f.floatNotation y e p hp he
        have hl : ((if s then ['-'] else ([] : List Char)).length : Int) = sg s := by cases s <;> rfl
        refine ⟨?_, h2, ?_⟩
        · rw [List.length_append]; omega
        · intro hn
          have : 0 ≤ y ∧ y < 10 := by
            apply Classical.byContradiction
            intro hc
            exact hn (List.mem_append_right _ (c hc))
          have := b this
          rw [List.length_append]; omega

/-- **C108 (partial).** In every arithmetic, with every notation, precision and alignment, a number printed with a size has at
most that number of characters, and exactly that number if it is padded, unless the text has a `!`. -/
theorem c108_width (rnd : Rat → Rat) (wide : Bool) (f : Fmt) (hf : f.size ≠ 0) (x : Num) :
    (print rnd wide f x).length ≤ f.size ∧
    (f.padded = true → '!' ∉ print rnd wide f x → (print rnd wide f x).length = f.size) ∧
    (f.padded = true → ∃ t k, print rnd wide f x = if f.leftAligned then t ++ List.replicate k ' ' else List.replicate k ' ' ++ t) := by
  obtain ⟨a, b, c⟩ := plain_ok rnd wide f x
  have hr : room f = f.size := by rw [room, if_neg hf]
  rw [print]
  generalize plain rnd wide f x = r at *
  refine ⟨?_, ?_, ?_⟩
  · split <;> split <;> simp only [List.length_append, List.length_replicate, List.length_nil] <;> omega
  · intro hp hn
    simp only [hp, hf, ne_eq, not_false_eq_true, and_self, if_true] at hn ⊢
    have hn' : '!' ∉ r.2 := by
      intro h; apply hn
      split
      · exact List.mem_append_left _ h
      · exact List.mem_append_right _ h
    have := c hn'
    split <;> simp only [List.length_append, List.length_replicate] <;> omega
  · intro hp
    simp only [hp, hf, ne_eq, not_false_eq_true, and_self, if_true]
    exact ⟨r.2, _, rfl⟩

/-- Zero, the infinities and what is not a number, with enough room. -/
theorem c108_special (rnd : Rat → Rat) (wide : Bool) (f : Fmt) (hf : f.size = 0 ∨ 4 ≤ f.size) (hp : f.padded = false) :
    print rnd wide f (.fin 0) = "0".toList ∧ print rnd wide f .nan = "NaN".toList ∧
    print rnd wide f (.inf false) = "+Inf".toList ∧ print rnd wide f (.inf true) = "-Inf".toList := by
  have hr : 4 ≤ room f := by rw [room]; split <;> omega
  have h3 : ¬ (room f < 3) := by omega
  have h4 : ¬ (room f < 4) := by omega
  refine ⟨?_, ?_, ?_, ?_⟩ <;> simp [print, plain, hp, h3, h4]

private theorem abs_eq (x : Rat) : (if decide (x < 0) = true then -x else x) = x.abs := by
  by_cases h : x < 0
  · simp only [h, decide_true, if_true]
    rw [Rat.abs_of_nonpos (Rat.le_of_lt h)]
  · simp only [h, decide_false, Bool.false_eq_true, if_false]
    rw [Rat.abs_of_nonneg (Rat.not_lt.mp h)]

private theorem abs_pos {x : Rat} (h : x ≠ 0) : 0 < x.abs := by
  by_cases hx : x < 0
  · rw [Rat.abs_of_nonpos (Rat.le_of_lt hx)]; grind
  · rw [Rat.abs_of_nonneg (Rat.not_lt.mp hx)]; grind

/-- A chosen number and its text, without padding. -/
private theorem print_fin (wide : Bool) (f : Fmt) (hp : f.padded = false) (x : Rat) (h : x ≠ 0) :
    print id wide f (.fin x) = match (choose id wide f.floatNotation (decide (x < 0)) x.abs (precision wide f) (room f)).2 with
      | .zero => ['0'] | .noSpace => ['?'] | .normal y e p => (if x < 0 then ['-'] else []) ++ body id f.floatNotation y e p := by
  rw [print, plain]
  simp only [hp, if_neg h, abs_eq, Bool.false_eq_true, false_and, if_false, List.append_nil, List.nil_append, ite_self]
  generalize (choose id wide f.floatNotation (decide (x < 0)) x.abs (precision wide f) (room f)) = c
  obtain ⟨a, m⟩ := c
  cases m with
  | zero => rfl
  | noSpace => rfl
  | normal y e p => simp only [decide_eq_true_eq]

/-- **C108 (partial).** In exact arithmetic a text that is not `?` and not `0` is the sign and the digits of the number,
rounded to some place (a half upwards), in the notation asked for.  Missing: the arithmetic of the machine, for which the digits
can differ (`c108_digits_fails`). -/
theorem c108_rounded_partial (wide : Bool) (f : Fmt) (hpad : f.padded = false) (hprec : f.precision ≤ 255) (x : Rat) (hx : x ≠ 0)
    (hlo : (10 : Rat) ^ (-(if wide then (512 : Int) else 64)) < x.abs) (hhi : x.abs < (10 : Rat) ^ (if wide then (512 : Int) else 64)) :
    print id wide f (.fin x) = "?".toList ∨ print id wide f (.fin x) = "0".toList ∨
    ∃ p e n, Rounded x.abs p e n ∧ print id wide f (.fin x) = (if x < 0 then ['-'] else []) ++ written f.floatNotation (lastDigits p n) e := by
  rw [print_fin wide f hpad x hx]
  cases hm : (choose id wide f.floatNotation (decide (x < 0)) x.abs (precision wide f) (room f)).2 with
  | zero => right; left; rfl
  | noSpace => left; rfl
  | normal y e p =>
    right; right
    obtain ⟨h1, h2, h3, n, h4, h5⟩ := choose_id wide f.floatNotation _ x.abs _ _ (prec_nonneg wide f) (prec_le wide f hprec) (abs_pos hx) hlo hhi y e p hm
    refine ⟨p.toNat, e, n, h4, ?_⟩
    have := body_id f.floatNotation y h2 h3 e p.toNat n h5
    rw [show ((p.toNat : Nat) : Int) = p by omega] at this
    simp only [this]

/-! ### Without a size -/

private theorem unlimited_relative (e : Int) (s : Bool) (P : Int) (h1 : 1 ≤ P) (h2 : P ≤ 255) (he : e.natAbs ≤ 522) (m : Int) (hm : m ≤ 10) (hm0 : 0 ≤ m) :
    (sizeRelative e s P (1000 - m)).2 = P := by
  obtain ⟨a, l, w, b1, b2, b3, b4⟩ := sizeRelative_val e s P (1000 - m)
  have := sg_cases s
  omega

private theorem expSize_le (e : Int) : 0 ≤ expSize e ∧ expSize e ≤ 10 := by
  rw [expSize]; repeat' split
  all_goals ((try simp only); repeat' split) <;> omega

private theorem unlimited (n : Notation) (hn : n ≠ .fixed) (e : Int) (s : Bool) (P : Int) (h1 : 1 ≤ P) (h2 : P ≤ 255) (he : e.natAbs ≤ 522) :
    (sizeOf n e s P 1000).2 = P := by
  have hw : ∀ x m, 0 ≤ x → x ≤ 10 → m.natAbs ≤ 522 → (withExponent x m s P 1000).2 = P := by
    intro x m hx hx' hm
    rw [withExponent, if_pos (by omega)]
    exact unlimited_relative m s P h1 h2 hm x hx' hx
  have hg : (e - engineering e).natAbs ≤ 522 := by rw [engineering_eq, triple]; omega
  have ex := expSize_le
  cases n with
  | fixed => exact absurd rfl hn
  | relative => have := unlimited_relative e s P h1 h2 he 0 (by omega) (by omega); simpa [sizeOf] using this
  | exponent => exact hw _ _ (ex e).1 (ex e).2 (by decide)
  | engineering => exact hw _ _ (ex _).1 (ex _).2 hg
  | smart =>
    simp only [sizeOf]
    apply hw _ _ _ _ hg
    · split
      · decide
      · exact (ex _).1
    · split
      · decide
      · exact (ex _).2
  | compact =>
    simp only [sizeOf]
    split
    · exact hw _ _ (by split <;> decide) (by split <;> decide) hg
    · exact hw _ _ (ex e).1 (ex e).2 (by decide)

private theorem asked_eq (wide : Bool) (f : Fmt) (h : f.precision ≤ 255) :
    precision wide f = asked wide f.floatNotation f.precision ∧ asked wide f.floatNotation f.precision ≤ 255 := by
  unfold precision asked
  by_cases h255 : f.precision = 255
  · rw [if_pos h255, if_pos h255]
    generalize f.floatNotation = n
    cases n <;> cases wide <;> exact ⟨rfl, by decide⟩
  · rw [if_neg h255, if_neg h255]
    exact ⟨rfl, h⟩

/-- **C108 (partial).** In exact arithmetic, without a size and in every notation but `%f`, the text has as many digits as the
precision says. Missing as above. -/
theorem c108_digits_partial (wide : Bool) (f : Fmt) (hpad : f.padded = false) (hsize : f.size = 0) (hn : f.floatNotation ≠ .fixed) (hprec : f.precision ≤ 255)
    (P : Nat) (hPdef : P = asked wide f.floatNotation f.precision) (h1 : 1 ≤ P) (x : Rat) (hx : x ≠ 0)
    (hlo : (10 : Rat) ^ (-(if wide then (512 : Int) else 64)) < x.abs) (hhi : x.abs < (10 : Rat) ^ (if wide then (512 : Int) else 64)) :
    ∃ e n, Rounded x.abs P e n ∧
      print id wide f (.fin x) = (if x < 0 then ['-'] else []) ++ written f.floatNotation (lastDigits P n) e := by
  obtain ⟨hP, hP2⟩ := asked_eq wide f hprec
  rw [← hPdef] at hP hP2
  clear hPdef hprec
  have hroom : room f = 1000 := by rw [room, if_pos hsize]
  rw [print_fin wide f hpad x hx, hP, hroom]
  generalize decide (x < 0) = s
  have he := normalise_exp id wide x.abs
  have hset : ∀ (Q : Int) (y : Rat) (e : Int), Q = P → e.natAbs ≤ 522 → (settle f.floatNotation s Q 1000 y e).2 = .normal y e P := by
    intro Q y e hQ hee
    subst hQ
    have := unlimited f.floatNotation hn e s P (by omega) (by omega) hee
    rw [settle, if_neg (by omega), if_neg (by omega), this]
  have hm : ∃ y e, (choose id wide f.floatNotation s x.abs P 1000).2 = .normal y e P := by
    rw [choose]
    have hq := unlimited f.floatNotation hn (normalise id wide x.abs).2 s P (by omega) (by omega) (by omega)
    rw [hq]
    split
    · refine ⟨_, _, hset _ _ _ ?_ (by omega)⟩
      simp only [precisionAfter]
      repeat' split
      all_goals omega
    · exact ⟨_, _, hset _ _ _ rfl (by omega)⟩
  obtain ⟨y, e, hm⟩ := hm
  rw [hm]
  obtain ⟨g1, g2, g3, n, g4, g5⟩ := choose_id wide f.floatNotation s x.abs _ _ (by omega) (by omega) (abs_pos hx) hlo hhi y e _ hm
  simp only [Int.toNat_natCast] at g4 g5
  refine ⟨e, n, g4, ?_⟩
  simp only [body_id f.floatNotation y g2 g3 e P n g5]

private theorem unlimited_fixed (e : Int) (s : Bool) (P : Int) (h1 : 0 ≤ P) (h2 : P ≤ 255) (he : e.natAbs ≤ 522) : (sizeFixed e s P 1000).2 = max 0 (P + e + 1) := by
  obtain ⟨a, l, b1, b2, b3, b4⟩ := sizeFixed_val e s P 1000
  have := sg_cases s
  omega

/-- **C108 (partial).** In exact arithmetic, without a size, `%.kf` prints the number rounded to `k` decimals (a half upwards), or
just `0` if this is zero. Missing as above. -/
theorem c108_fixed_partial (wide : Bool) (f : Fmt) (hpad : f.padded = false) (hsize : f.size = 0) (hn : f.floatNotation = .fixed) (hprec : f.precision ≤ 255)
    (P : Nat) (hPdef : P = asked wide .fixed f.precision)
        (x : Rat) (hx : x ≠ 0)
    (hlo : (10 : Rat) ^ (-(if wide then (512 : Int) else 64)) < x.abs) (hhi : x.abs < (10 : Rat) ^ (if wide then (512 : Int) else 64)) :
    ((x.abs * (10 : Rat) ^ (P : Int) + 1 / 2).floor = 0 ∧ print id wide f (.fin x) = "0".toList) ∨
    ∃ (p : Nat) (e : Int) (n : Nat), (p : Int) - 1 - e = P ∧ Rounded x.abs p e n ∧
      print id wide f (.fin x) = (if x < 0 then ['-'] else []) ++ place (lastDigits p n) e := by
  obtain ⟨hP, hP2⟩ := asked_eq wide f hprec
  rw [hn, ← hPdef] at hP hP2
  clear hPdef hprec
  have hroom : room f = 1000 := by rw [room, if_pos hsize]
  rw [print_fin wide f hpad x hx, hP, hroom, hn]
  generalize decide (x < 0) = s
  have he := normalise_exp id wide x.abs
  obtain ⟨hxe, m1, m2, m3⟩ := normalise_id wide x.abs (abs_pos hx) hlo hhi
  have hset : ∀ (Q : Int) (y : Rat) (e : Int), Q = P → e.natAbs ≤ 522 →
      (settle .fixed s Q 1000 y e).2 = .zero ∧ P + e + 1 ≤ 0 ∨ 0 < (P : Int) + e + 1 ∧ (settle .fixed s Q 1000 y e).2 = .normal y e (P + e + 1) := by
    intro Q y e hQ hee
    subst hQ
    have := unlimited_fixed e s P (by omega) (by omega) hee
    rw [settle]
    simp only [sizeOf, this]
    by_cases hz : (P : Int) + e + 1 ≤ 0
    · left
      rw [if_pos (by omega)]
      exact ⟨rfl, hz⟩
    · right
      rw [if_neg (by omega), if_neg (by omega)]
      refine ⟨by omega, ?_⟩
      simp only [Mode.normal.injEq, true_and]
      omega
  have small : ∀ c : Rat, 0 ≤ c → c * 10 < 10 / 2 → (c + 1 / 2).floor = 0 := by
    intro c hc0 hc
    apply floor_eq
    · simp; grind
    · simp; grind
  have hval : x.abs * (10 : Rat) ^ (P : Int) = (normalise id wide x.abs).1 * T ((normalise id wide x.abs).2 + P) := by
    rw [T_add, ← Rat.mul_assoc, ← hxe]
  have hq := unlimited_fixed (normalise id wide x.abs).2 s P (by omega) (by omega) (by omega)
  have htext : ∀ y e, (choose id wide .fixed s x.abs P 1000).2 = .normal y e (P + e + 1) →
      ∃ (p : Nat) (e : Int) (n : Nat), (p : Int) - 1 - e = P ∧ Rounded x.abs p e n ∧
      (match (choose id wide .fixed s x.abs P 1000).2 with
      | .zero => ['0'] | .noSpace => ['?'] | .normal y e p => (if x < 0 then ['-'] else []) ++ body id .fixed y e p) = (if x < 0 then ['-'] else []) ++ place (lastDigits p n) e := by
    intro y e hm
    obtain ⟨g1, g2, g3, n, g4, g5⟩ := choose_id wide .fixed s x.abs _ _ (by omega) (by omega) (abs_pos hx) hlo hhi y e _ hm
    refine ⟨((P : Int) + e + 1).toNat, e, n, by omega, g4, ?_⟩
    have := body_id .fixed y g2 g3 e _ n g5
    rw [show (((((P : Int) + e + 1).toNat : Nat)) : Int) = P + e + 1 by omega] at this
    rw [hm]
    simp only [this]
    rfl
  generalize hw : normalise id wide x.abs = w at *
  obtain ⟨m, e0⟩ := w
  simp only at he hxe m1 m2 m3 hval hq
  have hch : choose id wide .fixed s x.abs P 1000 =
      if corrected id .fixed m (max 0 (P + e0 + 1)) ≥ 10 then settle .fixed s P 1000 (id (corrected id .fixed m (max 0 (P + e0 + 1)) / 10)) (e0 + 1)
      else settle .fixed s P 1000 (corrected id .fixed m (max 0 (P + e0 + 1))) e0 := by
    rw [choose]
    simp only [hw, sizeOf, hq, precisionAfter, true_or, if_true, Int.lt_irrefl, gt_iff_lt, if_false]
  have hcor : corrected id .fixed m (max 0 (P + e0 + 1)) = m + T (-(max 0 (P + e0 + 1))) * 5 := by
    rw [corrected, if_pos (.inl rfl), if_pos (by omega), roundUp_id _ _ (by omega) (by omega)]
  have hTpos := T_pos (e0 + P)
  have h0 : 0 ≤ m * T (e0 + P) := by have := mul_le m1 hTpos; grind
  by_cases hy : corrected id .fixed m (max 0 (P + e0 + 1)) ≥ 10
  · rw [if_pos hy] at hch
    rcases hset P (id (corrected id .fixed m (max 0 (P + e0 + 1)) / 10)) (e0 + 1) rfl (by omega) with ⟨hz, hle⟩ | ⟨hpos, hz⟩
    · left
      refine ⟨?_, ?_⟩
      · rw [hval]
        apply small _ h0
        have a1 : T (e0 + P) ≤ T (-2) := T_mono (by omega)
        have a2 : T (-2) = 1 / 100 := by have := T_add (-1) (-1); rw [T_neg_one] at this; rw [show (-2 : Int) = -1 + -1 by rfl, this]; grind
        have a3 := mul_le m2 hTpos
        grind
      · rw [hch, hz]; rfl
    · right
      rw [← hch] at hz
      exact htext _ _ hz
  · rw [if_neg hy] at hch
    rcases hset P (corrected id .fixed m (max 0 (P + e0 + 1))) e0 rfl (by omega) with ⟨hz, hle⟩ | ⟨hpos, hz⟩
    · left
      refine ⟨?_, ?_⟩
      · rw [hval]
        apply small _ h0
        rw [hcor, show max 0 ((P : Int) + e0 + 1) = 0 by omega] at hy
        have a0 : T (-0) = 1 := T_zero
        rw [a0] at hy
        have a1 : T (e0 + P) ≤ T (-1) := T_mono (by omega)
        rw [T_neg_one] at a1
        have a2 : m * T (e0 + P) ≤ m * (1 / 10) := Rat.mul_le_mul_of_nonneg_left a1 (by grind)
        grind
      · rw [hch, hz]; rfl
    · right
      rw [← hch] at hz
      exact htext _ _ hz

private theorem lay_head (d : Char) (ds : List Char) (n : Nat) : ∃ t, lay (d :: ds) (n + 1) = d :: t := ⟨lay ds n, rfl⟩

/-- The text of digits is not one of the marks. -/
private theorem place_ne (p : Nat) (e : Int) (n : Nat) (hp : 0 < p) (h1 : 10 ^ (p - 1) ≤ n) (h2 : n < 10 ^ p) (t : List Char) (ht : t = [] ∨ t = ['-']) :
    t ++ place (lastDigits p n) e ≠ ['?'] ∧ t ++ place (lastDigits p n) e ≠ ['0'] := by
  rcases ht with rfl | rfl
  rotate_left
  · exact ⟨by simp, by simp⟩
  obtain ⟨k, rfl⟩ : ∃ k, p = k + 1 := ⟨p - 1, by omega⟩
  simp only [List.nil_append, place]
  split
  · exact ⟨by simp, by simp⟩
  · rename_i he
    rw [lastDigits_cons, show (e + 1).toNat = e.toNat + 1 by omega]
    simp only [lay]
    simp only [Nat.add_sub_cancel] at h1
    have d1 : 1 ≤ n / 10 ^ k := (Nat.le_div_iff_mul_le (Nat.pow_pos (by decide))).mpr (by omega)
    have d2 : n / 10 ^ k < 10 := by rw [Nat.div_lt_iff_lt_mul (Nat.pow_pos (by decide))]; rw [Nat.pow_succ] at h2; omega
    generalize n / 10 ^ k = d at *
    have key : ∀ d : Nat, d < 10 → 1 ≤ d → Char.ofNat (48 + d % 10) ≠ '?' ∧ Char.ofNat (48 + d % 10) ≠ '0' := by decide
    obtain ⟨a, b⟩ := key d d2 d1
    exact ⟨fun h => a (List.head_eq_of_cons_eq h), fun h => b (List.head_eq_of_cons_eq h)⟩

/-- **C108 (partial).** In exact arithmetic, `%f` prints `?` only if the number, rounded to an integer, has more digits than there is
room for, and `0` only for numbers below one. Missing as above. -/
theorem c108_no_space_partial (wide : Bool) (f : Fmt) (hpad : f.padded = false) (hsize : f.size ≠ 0) (hn : f.floatNotation = .fixed) (hprec : f.precision ≤ 255)
    (x : Rat) (hx : x ≠ 0)
    (hlo : (10 : Rat) ^ (-(if wide then (512 : Int) else 64)) < x.abs) (hhi : x.abs < (10 : Rat) ^ (if wide then (512 : Int) else 64)) :
    (print id wide f (.fin x) = "?".toList → (10 : Rat) ^ ((f.size : Int) - (if x < 0 then 1 else 0)) ≤ x.abs + 1 / 2) ∧
    (print id wide f (.fin x) = "0".toList → x.abs < 1) := by
  have hroom : room f = f.size := by rw [room, if_neg hsize]
  have hsg : (if x < 0 then (1 : Int) else 0) = sg (decide (x < 0)) := by simp [sg]
  rw [print_fin wide f hpad x hx, hroom, hn, hsg]
  have hP := prec_nonneg wide f
  have hP2 := prec_le wide f hprec
  generalize precision wide f = P at *
  generalize hs : decide (x < 0) = s
  have he := normalise_exp id wide x.abs
  obtain ⟨hxe, m1, m2, m3⟩ := normalise_id wide x.abs (abs_pos hx) hlo hhi
  -- the mode
  have hmode : ((choose id wide .fixed s x.abs P f.size).2 = .noSpace → T ((f.size : Int) - sg s) ≤ x.abs + 1 / 2) ∧
      ((choose id wide .fixed s x.abs P f.size).2 = .zero → x.abs < 1) := by
    generalize hw : normalise id wide x.abs = w at *
    obtain ⟨m, e0⟩ := w
    simp only at he hxe m1 m2 m3
    obtain ⟨a, l, b1, b2, b3, b4⟩ := sizeFixed_val e0 s P f.size
    obtain ⟨a', l', b1', b2', b3', b4'⟩ := sizeFixed_val (e0 + 1) s P f.size
    have hg := sg_cases s
    have hset : ∀ (y : Rat) (e : Int), ((settle .fixed s P f.size y e).2 = .noSpace → (sizeFixed e s P f.size).2 < 0) ∧
        ((settle .fixed s P f.size y e).2 = .zero → (sizeFixed e s P f.size).2 = 0) := by
      intro y e
      have hso : sizeOf .fixed e s P f.size = sizeFixed e s P f.size := rfl
      rw [← hso]
      unfold settle
      by_cases k1 : (sizeOf .fixed e s P f.size).2 = 0
      · simp [k1]
      · by_cases k2 : (sizeOf .fixed e s P f.size).2 < 0
        · simp [k1, k2]
        · simp [k1, k2]
    have hch : choose id wide .fixed s x.abs P f.size =
        if corrected id .fixed m (sizeFixed e0 s P f.size).2 ≥ 10 then settle .fixed s P f.size (id (corrected id .fixed m (sizeFixed e0 s P f.size).2 / 10)) (e0 + 1)
        else settle .fixed s P f.size (corrected id .fixed m (sizeFixed e0 s P f.size).2) e0 := by
      rw [choose]
      simp only [hw, sizeOf, precisionAfter, true_or, if_true, Int.lt_irrefl, gt_iff_lt, if_false]
    have hle := sizeFixed_le e0 s P f.size hP
    have hTe := T_pos e0
    have hT1 : T (e0 + 1) = T e0 * 10 := by rw [T_add, T_one]
    generalize hqd : (sizeFixed e0 s P f.size).2 = q at *
    have hcor : 0 ≤ q → corrected id .fixed m q = m + T (-q) * 5 := by
      intro h
      rw [corrected, if_pos (.inl rfl), if_pos h, roundUp_id _ _ h (by omega)]
    have hcor' : ¬ 0 ≤ q → corrected id .fixed m q = m := by
      intro h
      rw [corrected, if_pos (.inl rfl), if_neg h]
    have hmx := mul_le m1 hTe
    have hmy := mul_le m2 hTe
    by_cases hy : corrected id .fixed m q ≥ 10
    · rw [if_pos hy] at hch
      obtain ⟨s1, s2⟩ := hset (id (corrected id .fixed m q / 10)) (e0 + 1)
      rw [hch]
      refine ⟨?_, ?_⟩
      · intro h
        have h3 := s1 h
        have hq : 0 ≤ q := by
          apply Classical.byContradiction
          intro hq
          rw [hcor' hq] at hy
          have : m = 10 := Rat.le_antisymm m2 hy
          have := m3 this
          omega
        rw [hcor hq] at hy
        have t1 : T ((f.size : Int) - sg s) ≤ T (e0 + 1) := T_mono (by omega)
        have t2 : T (-q) * T e0 ≤ T (-1) := by rw [← T_add]; exact T_mono (by omega)
        rw [T_neg_one] at t2
        have t3 := mul_le (show 10 - T (-q) * 5 ≤ m by grind) hTe
        rw [hxe]
        grind
      · intro h
        have h3 := s2 h
        have t1 : T (e0 + 1) ≤ T (-1) := T_mono (by omega)
        rw [T_neg_one] at t1
        rw [hxe]
        grind
    · rw [if_neg hy] at hch
      obtain ⟨s1, s2⟩ := hset (corrected id .fixed m q) e0
      rw [hch]
      refine ⟨?_, ?_⟩
      · intro h
        have h3 : q < 0 := by
          have := s1 h
          rw [hqd] at this
          exact this
        have t1 : T ((f.size : Int) - sg s) ≤ T e0 := T_mono (by omega)
        rw [hxe]
        grind
      · intro h
        have h3 : q = 0 := by
          have := s2 h
          rw [hqd] at this
          exact this
        have hm : m < 10 := by
          have t0 : T (-0) = 1 := T_zero
          rw [hcor (by omega), h3, t0] at hy; grind
        have t1 : T (e0 + 1) ≤ T 0 := T_mono (by omega)
        rw [T_zero] at t1
        have t2 := mul_lt hm hTe
        rw [hxe]
        grind
  cases hm : (choose id wide .fixed s x.abs P f.size).2 with
  | zero =>
    exact ⟨fun h => absurd (show ['0'] = ['?'] from h) (by decide), fun _ => hmode.2 hm⟩
  | noSpace =>
    exact ⟨fun _ => hmode.1 hm, fun h => absurd (show ['?'] = ['0'] from h) (by decide)⟩
  | normal y e p =>
    obtain ⟨g1, g2, g3, n, g4, g5⟩ := choose_id wide .fixed s x.abs _ _ hP hP2 (abs_pos hx) hlo hhi y e p hm
    have := body_id .fixed y g2 g3 e p.toNat n g5
    rw [show ((p.toNat : Nat) : Int) = p by omega] at this
    simp only [this, written]
    have hne := place_ne p.toNat e n g4.1 g4.2.1 g4.2.2.1 (if x < 0 then ['-'] else []) (by split <;> simp)
    exact ⟨fun h => absurd h hne.1, fun h => absurd h hne.2⟩

/-! ### The arithmetic of the machine -/

/-- **C108 (disagreement).** In the arithmetic of `float32` the integer 283 is printed by `%f` as `282.999992`, 160 as `159.999990`, and
12.5 by `%.0f` as `12`; in exact arithmetic as `283.000000`, `160.000000` and `13`. -/
theorem c108_digits_fails :
    (ieee Verif.FloatNum.f32 283 = 283 ∧ ieee Verif.FloatNum.f32 160 = 160) ∧
    print (ieee Verif.FloatNum.f32) false ⟨0, 255, false, false, .fixed⟩ (.fin 283) = "282.999992".toList ∧
    print (ieee Verif.FloatNum.f32) false ⟨0, 255, false, false, .fixed⟩ (.fin 160) = "159.999990".toList ∧
    print (ieee Verif.FloatNum.f32) false ⟨0, 0, false, false, .fixed⟩ (.fin (25 / 2)) = "12".toList ∧
    print id false ⟨0, 255, false, false, .fixed⟩ (.fin 283) = "283.000000".toList ∧
    print id false ⟨0, 0, false, false, .fixed⟩ (.fin (25 / 2)) = "13".toList := by
  refine ⟨⟨by decide +kernel, by decide +kernel⟩, by decide +kernel, by decide +kernel, by decide +kernel, by decide +kernel, by decide +kernel⟩

/-- The hypotheses are met: `-3141.5927` in the notations, without and with a size. -/
example : print id true ⟨0, 3, false, false, .fixed⟩ (.fin (-31415927 / 10000)) = "-3141.593".toList ∧
    print id true ⟨0, 5, false, false, .exponent⟩ (.fin (-31415927 / 10000)) = "-3.1416E+3".toList ∧
    print id true ⟨0, 5, false, false, .smart⟩ (.fin (31415927 / 10000000000)) = "3.1416m".toList ∧
    print id true ⟨8, 3, true, false, .fixed⟩ (.fin (-31415927 / 10000)) = "-3141.59".toList ∧
    print id true ⟨7, 5, true, true, .engineering⟩ (.fin (999999 / 1000)) = "1.00E+3".toList := by decide +kernel

end Verif.FloatPrint
