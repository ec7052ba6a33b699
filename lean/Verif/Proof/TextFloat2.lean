import Verif.Proof.TextFloat
set_option maxRecDepth 8000
set_option linter.unusedSimpArgs false
set_option linter.unusedVariables false
namespace Verif.FloatNum
open Verif.Spec.TextFloat

/-! ## After the sign -/

/-- What is done after the sign. -/
def afterSign (f : Fmt) (wide : Bool) (room : Nat) (cs : List Char) : Bool × Flt :=
  let s := intLoop f room cs (.fin 0) '\x00'
  if s.canReturn then (s.ret, s.number) else exponentPhase f wide (decimalPhase f s)

theorem afterSign_of {f : Fmt} {wide : Bool} {room : Nat} {cs : List Char} {s : Scan}
    (h : intLoop f room cs (.fin 0) '\x00' = s) :
    afterSign f wide room cs = if s.canReturn then (s.ret, s.number) else exponentPhase f wide (decimalPhase f s) := by
  subst h; rfl

theorem decimalPhase_dot {f : Fmt} {x : Flt} {room : Nat} {cs : List Char} {t : Scan}
    (h : decLoop f room cs (.fin 0) (ofInt f 1) '.' = t) :
    decimalPhase f ⟨x, true, false, '.', '.' :: cs, room + 1⟩ =
      if bad f (add f x t.number) then { t with number := x, ret := false, canReturn := true }
      else { t with number := add f x t.number } := by
  subst h; rfl

def signed (s : Int) (x : Flt) : Flt := if s = -1 then neg x else x

theorem signed_fin (sg : List Char) (s : Int) (h : Sign sg s) (x : Int) : signed s (.fin x) = .fin (s * x) := by
  cases h <;> simp [signed, neg]

theorem start (f : Fmt) (wide : Bool) (sg : List Char) (s : Int) (h : Sign sg s) (cs : List Char)
    (hc : sg = [] → cs.headD '\x00' ≠ '+' ∧ cs.headD '\x00' ≠ '-') :
    ∃ room, 999 ≤ room ∧ room ≤ 1000 ∧ stringToFloat f wide (sg ++ cs) =
      ((afterSign f wide room cs).1, signed s (afterSign f wide room cs).2) := by
  cases h with
  | none =>
    obtain ⟨h1, h2⟩ := hc rfl
    refine ⟨1000, by omega, by omega, ?_⟩
    unfold stringToFloat afterSign signed
    simp only [List.nil_append, h1, h2, or_self, if_false]
    simp
  | plus =>
    refine ⟨999, by omega, by omega, ?_⟩
    unfold stringToFloat afterSign signed
    simp
  | minus =>
    refine ⟨999, by omega, by omega, ?_⟩
    unfold stringToFloat afterSign signed
    simp

theorem digit_not_sign (d : Nat) (h : d < 10) : Char.ofNat (48 + d) ≠ '+' ∧ Char.ofNat (48 + d) ≠ '-' := by
  have : d = 0 ∨ d = 1 ∨ d = 2 ∨ d = 3 ∨ d = 4 ∨ d = 5 ∨ d = 6 ∨ d = 7 ∨ d = 8 ∨ d = 9 := by omega
  rcases this with rfl | rfl | rfl | rfl | rfl | rfl | rfl | rfl | rfl | rfl <;> decide

theorem head_ok (ds : List Nat) (hd : Digits ds) (rest : List Char)
    (hr : ds = [] → rest.headD '\x00' ≠ '+' ∧ rest.headD '\x00' ≠ '-') :
    (text ds ++ rest).headD '\x00' ≠ '+' ∧ (text ds ++ rest).headD '\x00' ≠ '-' := by
  cases ds with
  | nil => exact hr rfl
  | cons d ds => rw [text_cons]; exact digit_not_sign d (hd d (by simp))

/-! ## The ends of the loops -/

theorem int_end (f : Fmt) (room : Nat) (x : Flt) (c : Char) :
    intLoop f (room + 1) [] x c = ⟨x, true, true, '\x00', [], room⟩ := rfl

theorem int_stop (f : Fmt) (room : Nat) (x : Flt) (c c' : Char) (rest : List Char) (h : c = '.' ∨ c = 'E' ∨ c = 'e') :
    intLoop f (room + 1) (c :: rest) x c' = ⟨x, true, false, c, c :: rest, room + 1⟩ := by
  rcases h with rfl | rfl | rfl <;> rfl

theorem dec_end (f : Fmt) (room : Nat) (x y : Flt) (c : Char) :
    decLoop f (room + 1) [] x y c = ⟨x, true, true, '\x00', [], room⟩ := rfl

theorem dec_stop (f : Fmt) (room : Nat) (x y : Flt) (c c' : Char) (rest : List Char) (h : c = 'E' ∨ c = 'e') :
    decLoop f (room + 1) (c :: rest) x y c' = ⟨x, true, false, c, c :: rest, room + 1⟩ := by
  rcases h with rfl | rfl <;> rfl

theorem digit?_none (c : Char) (h : ¬ (48 ≤ c.toNat ∧ c.toNat ≤ 57)) : digit? c = none := by
  unfold digit?; rw [if_neg h]

/-! ## Whole numbers -/

theorem whole {f : Fmt} {N : Nat} (h : Fits f N) (wide : Bool) (room : Nat) (ds : List Nat) (hd : Digits ds)
    (hl : ds.length < room) (hv : number ds < 2 ^ f.p) :
    afterSign f wide room (text ds) = (true, .fin ((number ds * 2 ^ f.K : Nat) : Int)) := by
  obtain ⟨c', h1⟩ := int_digits h ds hd room 0 '\x00' [] (by omega) hv
  rw [Nat.zero_mul, List.append_nil] at h1
  rw [show room - ds.length = (room - ds.length - 1) + 1 by omega, int_end] at h1
  rw [afterSign_of h1]
  rfl

/-! ## Decimals -/

theorem ofInt_one {f : Fmt} {N : Nat} (h : Fits f N) : ofInt f 1 = .fin ((10 ^ 0 * 2 ^ f.K : Nat) : Int) := by
  have h1 := ofInt_digit h 1 (by omega)
  rw [show ((1 : Nat) : Int) = 1 from rfl] at h1
  rw [h1]

/-- The sum of the integral part and of the decimals. -/
theorem dec_sum {f : Fmt} {N : Nat} (h : Fits f N) (V P W n : Nat) (hn : n ≤ N) (hV : V < 2 ^ f.p) (hW : W < 10 ^ n)
    (hc : Close f n P W) :
    ∃ R : Nat, add f (.fin ((V * 2 ^ f.K : Nat) : Int)) (.fin (P : Int)) = .fin (R : Int) ∧
      2 ^ f.p * (10 ^ n * R) ≤ 2 ^ f.p * ((V * 10 ^ n + W) * 2 ^ f.K) + (3 * n + V + 3) * 2 ^ f.K * 10 ^ n ∧
      2 ^ f.p * ((V * 10 ^ n + W) * 2 ^ f.K) ≤ 2 ^ f.p * (10 ^ n * R) + (3 * n + V + 3) * 2 ^ f.K * 10 ^ n := by
  have hp : 0 < f.p := by have := h.p5; omega
  have hPle := close_le h n P W hn hW hc
  have hs : V * 2 ^ f.K + P ≤ 1 * 2 ^ (f.K + f.p + 1) := by
    have h1 : V * 2 ^ f.K + 1 * 2 ^ f.K ≤ 2 ^ f.p * 2 ^ f.K := by
      rw [← Nat.add_mul]; exact Nat.mul_le_mul_right _ hV
    have h2 : 1 * 2 ^ f.K ≤ 2 ^ f.p * 2 ^ f.K := Nat.mul_le_mul_right _ (pow_pos' _)
    have h3 : 2 ^ (f.K + f.p + 1) = 2 * (2 ^ f.p * 2 ^ f.K) := by
      rw [Nat.pow_succ, Nat.pow_add]; grind
    omega
  have ea : add f (.fin ((V * 2 ^ f.K : Nat) : Int)) (.fin (P : Int)) = .fin ((rneQ f.p (V * 2 ^ f.K + P) 1 : Nat) : Int) := by
    rw [add_nat]
    exact roundQ_fin f _ _ (f.K + f.p + 1) hp (by omega) hs (by have := h.top; omega)
  have herr2 := rneQ_err f.p (V * 2 ^ f.K + P) 1 hp (by omega)
  generalize rneQ f.p (V * 2 ^ f.K + P) 1 = R at *
  refine ⟨R, ea, ?_⟩
  obtain ⟨hc1, hc2⟩ := hc
  have h20 := twenty h
  have hn3 := h.n3
  have hQ := pow_pos' f.p
  have hb := Nat.pow_pos (n := n) (show 0 < 10 by omega)
  have hst := final_arith ((2 ^ f.K : Nat) : Int) ((10 ^ n : Nat) : Int) ((2 ^ f.p : Nat) : Int) P R V W n
    (by omega) (by omega) (by omega) (by omega) (by omega) (by omega)
  simp only [Nat.one_mul, Nat.mul_one] at herr2
  specialize hst (by exact_mod_cast herr2.1) (by exact_mod_cast herr2.2) (by exact_mod_cast hc1)
    (by exact_mod_cast hc2)
  exact ⟨by exact_mod_cast hst.1, by exact_mod_cast hst.2⟩

theorem decimals {f : Fmt} {N : Nat} (h : Fits f N) (wide : Bool) (room : Nat) (ds fs : List Nat) (hd : Digits ds)
    (hf : Digits fs) (hl : ds.length + fs.length + 1 < room) (hv : number ds < 2 ^ f.p) (hn : fs.length ≤ N) :
    ∃ R : Nat, afterSign f wide room (text ds ++ '.' :: text fs) = (true, .fin (R : Int)) ∧
      2 ^ f.p * (10 ^ fs.length * R) ≤ 2 ^ f.p * ((number ds * 10 ^ fs.length + number fs) * 2 ^ f.K) +
        (3 * fs.length + number ds + 3) * 2 ^ f.K * 10 ^ fs.length ∧
      2 ^ f.p * ((number ds * 10 ^ fs.length + number fs) * 2 ^ f.K) ≤ 2 ^ f.p * (10 ^ fs.length * R) +
        (3 * fs.length + number ds + 3) * 2 ^ f.K * 10 ^ fs.length := by
  obtain ⟨c', h1⟩ := int_digits h ds hd room 0 '\x00' ('.' :: text fs) (by omega) hv
  rw [Nat.zero_mul] at h1
  obtain ⟨P, c'', hc, h2⟩ := dec_digits h fs hf (room - ds.length - 1) 0 0 0 '.' [] (by omega) (by omega) (by simp)
    (by simp [Close])
  rw [Nat.zero_add] at hc h2
  obtain ⟨R, hR, hb⟩ := dec_sum h (number ds) P (upTo 0 fs) fs.length hn hv (upTo_lt fs hf) hc
  refine ⟨R, ?_, hb⟩
  rw [show room - ds.length = (room - ds.length - 1) + 1 by omega, int_stop _ _ _ _ _ _ (Or.inl rfl)] at h1
  rw [List.append_nil, show room - ds.length - 1 - fs.length = (room - ds.length - 1 - fs.length - 1) + 1 by omega,
    dec_end, ← ofInt_one h] at h2
  rw [afterSign_of h1]
  simp only [Bool.false_eq_true, if_false]
  rw [decimalPhase_dot h2]
  simp only
  rw [show upTo 0 ds = number ds from rfl, hR, bad_fin]
  rfl

/-! ## Exponents -/

theorem exp_digits (es : List Nat) : ∀ (he : Digits es) (room e : Nat) (rest : List Char), es.length ≤ room →
    upTo e es < 512 → expLoop room (text es ++ rest) e = expLoop (room - es.length) rest (upTo e es) := by
  induction es with
  | nil => intro _ room e rest _ _; rfl
  | cons d es ih =>
    intro he room e rest hr hv
    obtain ⟨room, rfl⟩ : ∃ r, room = r + 1 := ⟨room - 1, by simp at hr; omega⟩
    rw [upTo_cons] at hv
    have h1 := upTo_ge es (10 * e + d)
    rw [text_cons, expLoop]
    simp only [List.headD_cons, List.tail_cons, digit?_of d (he d (by simp))]
    rw [if_neg (by omega), Nat.mul_comm e 10, ih (fun x hx => he x (by simp [hx])) room _ rest (by simpa using hr) hv,
      upTo_cons]
    simp

/-- An exponent of 512 or more, whatever follows. -/
theorem exp_large (es : List Nat) : ∀ (he : Digits es) (room e : Nat) (rest : List Char), es.length ≤ room →
    e < 512 → 512 ≤ upTo e es → ∃ x, expLoop room (text es ++ rest) e = (x, false, true) := by
  induction es with
  | nil => intro _ room e rest _ _ _; simp [upTo] at *; omega
  | cons d es ih =>
    intro he room e rest hr h0 hv
    obtain ⟨room, rfl⟩ : ∃ r, room = r + 1 := ⟨room - 1, by simp at hr; omega⟩
    rw [upTo_cons] at hv
    rw [text_cons, expLoop]
    simp only [List.headD_cons, List.tail_cons, digit?_of d (he d (by simp))]
    by_cases h : e * 10 + d ≥ 512
    · exact ⟨_, by rw [if_pos h]⟩
    · rw [if_neg h]
      exact ih (fun x hx => he x (by simp [hx])) room _ rest (by simpa using hr) (by omega)
        (by rw [Nat.mul_comm]; exact hv)

/-- A character that is not a digit after the exponent. -/
theorem exp_bad (es : List Nat) : ∀ (he : Digits es) (room e : Nat) (c : Char) (rest : List Char), es.length < room →
    digit? c = none → c ≠ '\x00' → (expLoop room (text es ++ c :: rest) e).2.1 = false := by
  induction es with
  | nil =>
    intro _ room e c rest hr hc h0
    obtain ⟨room, rfl⟩ : ∃ r, room = r + 1 := ⟨room - 1, by simp at hr; omega⟩
    simp [text, expLoop, hc, h0]
  | cons d es ih =>
    intro he room e c rest hr hc h0
    obtain ⟨room, rfl⟩ : ∃ r, room = r + 1 := ⟨room - 1, by simp at hr; omega⟩
    rw [text_cons, expLoop]
    simp only [List.headD_cons, List.tail_cons, digit?_of d (he d (by simp))]
    split
    · rfl
    · exact ih (fun x hx => he x (by simp [hx])) room _ c rest (by simpa using hr) hc h0

/-! ## Refusals -/

/-- Any digits, then a character: the text is refused, or the loop stops there. -/
theorem int_any (f : Fmt) (ds : List Nat) : ∀ (hd : Digits ds) (room : Nat) (x : Flt) (c : Char) (rest : List Char),
    ds.length ≤ room →
    ((intLoop f room (text ds ++ rest) x c).ret = false ∧ (intLoop f room (text ds ++ rest) x c).canReturn = true) ∨
    ∃ y c', intLoop f room (text ds ++ rest) x c = intLoop f (room - ds.length) rest y c' := by
  induction ds with
  | nil => intro _ room x c rest _; exact Or.inr ⟨x, c, rfl⟩
  | cons d ds ih =>
    intro hd room x c rest hr
    obtain ⟨room, rfl⟩ : ∃ r, room = r + 1 := ⟨room - 1, by simp at hr; omega⟩
    rw [text_cons, intLoop]
    simp only [List.headD_cons, List.tail_cons, digit?_of d (hd d (by simp))]
    split
    · exact Or.inl ⟨rfl, rfl⟩
    · split
      · exact Or.inl ⟨rfl, rfl⟩
      · have := ih (fun x hx => hd x (by simp [hx])) room (add f (mul f x (ofInt f 10)) (ofInt f (d : Int)))
          (Char.ofNat (48 + d)) rest (by simpa using hr)
        simpa using this

/-- The powers of ten of the decimals. -/
def power (f : Fmt) : Nat → Flt
  | 0 => ofInt f 1
  | n + 1 => mul f (power f n) (ofInt f 10)

/-- Any decimals, while the powers of ten are finite. -/
theorem dec_any (f : Fmt) (M : Nat) (hM : ∀ n, n < M → bad f (power f (n + 1)) = false) (fs : List Nat) :
    ∀ (hd : Digits fs) (room k : Nat) (x : Flt) (c : Char) (rest : List Char), fs.length ≤ room → k + fs.length ≤ M →
    ∃ y c', decLoop f room (text fs ++ rest) x (power f k) c =
      decLoop f (room - fs.length) rest y (power f (k + fs.length)) c' := by
  induction fs with
  | nil => intro _ room k x c rest _ _; exact ⟨x, c, rfl⟩
  | cons d fs ih =>
    intro hd room k x c rest hr hk
    obtain ⟨room, rfl⟩ : ∃ r, room = r + 1 := ⟨room - 1, by simp at hr; omega⟩
    simp only [List.length_cons] at hk hr
    rw [text_cons, decLoop]
    simp only [List.headD_cons, List.tail_cons, digit?_of d (hd d (by simp))]
    rw [show mul f (power f k) (ofInt f 10) = power f (k + 1) from rfl, hM k (by omega)]
    simp only [Bool.false_eq_true, if_false]
    obtain ⟨y, c', h1⟩ := ih (fun x hx => hd x (by simp [hx])) room (k + 1)
      (add f x (div f (ofInt f (d : Int)) (power f (k + 1)))) (Char.ofNat (48 + d)) rest (by omega) (by omega)
    refine ⟨y, c', ?_⟩
    rw [h1, List.length_cons, show k + (fs.length + 1) = k + 1 + fs.length by omega,
      show room + 1 - (fs.length + 1) = room - fs.length by omega]

theorem powers32 : ∀ n, n < 38 → bad f32 (power f32 (n + 1)) = false := by
  decide +kernel
theorem powers64 : ∀ n, n < 308 → bad f64 (power f64 (n + 1)) = false := by
  decide +kernel
theorem power32_inf : bad f32 (power f32 39) = true := by decide +kernel
theorem power64_inf : bad f64 (power f64 309) = true := by decide +kernel

theorem int_bad (f : Fmt) (room : Nat) (x : Flt) (c c' : Char) (rest : List Char) (h : digit? c = none)
    (h1 : ¬ (c = '.' ∨ c = 'E' ∨ c = 'e')) (h2 : c ≠ '\x00') :
    intLoop f (room + 1) (c :: rest) x c' = ⟨x, false, true, c, rest, room⟩ := by
  rw [intLoop]
  simp only [List.headD_cons, List.tail_cons, h, h1, if_false]
  simp [h2]

theorem dec_bad (f : Fmt) (room : Nat) (x y : Flt) (c c' : Char) (rest : List Char) (h : digit? c = none)
    (h1 : ¬ (c = 'E' ∨ c = 'e')) (h2 : c ≠ '\x00') :
    decLoop f (room + 1) (c :: rest) x y c' = ⟨x, false, true, c, rest, room⟩ := by
  rw [decLoop]
  simp only [List.headD_cons, List.tail_cons, h, h1, if_false]
  simp [h2]

theorem refused_int (f : Fmt) (wide : Bool) (room : Nat) (ds : List Nat) (hd : Digits ds) (c : Char) (rest : List Char)
    (hl : ds.length < room) (h : digit? c = none) (h1 : ¬ (c = '.' ∨ c = 'E' ∨ c = 'e')) (h2 : c ≠ '\x00') :
    (afterSign f wide room (text ds ++ c :: rest)).1 = false := by
  rcases int_any f ds hd room (.fin 0) '\x00' (c :: rest) (by omega) with ⟨h3, h4⟩ | ⟨y, c', h3⟩
  · rw [afterSign_of rfl, h4]; exact h3
  · rw [show room - ds.length = (room - ds.length - 1) + 1 by omega, int_bad _ _ _ _ _ _ h h1 h2] at h3
    rw [afterSign_of h3]
    rfl

theorem exponentPhase_false (f : Fmt) (wide : Bool) (s : Scan) (h : s.ret = false) : (exponentPhase f wide s).1 = false := by
  unfold exponentPhase
  simp only [h, Bool.false_and]
  repeat' split
  all_goals rfl

theorem after_dec (f : Fmt) (M : Nat) (hM : ∀ n, n < M → bad f (power f (n + 1)) = false) (x : Flt) (room : Nat)
    (fs : List Nat) (hf : Digits fs) (rest : List Char) (hr : fs.length ≤ room) (hk : fs.length ≤ M) :
    ∃ y c', decLoop f room (text fs ++ rest) (.fin 0) (ofInt f 1) '.' =
      decLoop f (room - fs.length) rest y (power f fs.length) c' := by
  obtain ⟨y, c', h⟩ := dec_any f M hM fs hf room 0 (.fin 0) '.' rest hr (by omega)
  rw [Nat.zero_add] at h
  exact ⟨y, c', h⟩

theorem refused_dec (f : Fmt) (M : Nat) (hM : ∀ n, n < M → bad f (power f (n + 1)) = false) (wide : Bool) (room : Nat)
    (ds fs : List Nat) (hd : Digits ds) (hf : Digits fs) (c : Char) (rest : List Char)
    (hl : ds.length + fs.length + 1 < room) (hk : fs.length ≤ M) (h : digit? c = none) (h1 : ¬ (c = 'E' ∨ c = 'e'))
    (h2 : c ≠ '\x00') :
    (afterSign f wide room (text ds ++ '.' :: (text fs ++ c :: rest))).1 = false := by
  rcases int_any f ds hd room (.fin 0) '\x00' ('.' :: (text fs ++ c :: rest)) (by omega) with ⟨h3, h4⟩ | ⟨y, c', h3⟩
  · rw [afterSign_of rfl, h4]; exact h3
  · rw [show room - ds.length = (room - ds.length - 1) + 1 by omega, int_stop _ _ _ _ _ _ (Or.inl rfl)] at h3
    rw [afterSign_of h3]
    simp only [Bool.false_eq_true, if_false]
    apply exponentPhase_false
    obtain ⟨z, c'', h5⟩ := after_dec f M hM y (room - ds.length - 1) fs hf (c :: rest) (by omega) hk
    rw [show room - ds.length - 1 - fs.length = (room - ds.length - 1 - fs.length - 1) + 1 by omega,
      dec_bad _ _ _ _ _ _ _ h h1 h2] at h5
    rw [decimalPhase_dot h5]
    split <;> rfl

/-- What is in front of the exponent: the text is refused, or the exponent is read. -/
theorem before_exp (f : Fmt) (M : Nat) (hM : ∀ n, n < M → bad f (power f (n + 1)) = false) (wide : Bool) (room : Nat)
    (ds : List Nat) (fs : Option (List Nat)) (hd : Digits ds) (hf : ∀ l, fs = some l → Digits l ∧ l.length ≤ M)
    (c : Char) (rest : List Char) (hl : (plain ds fs).length < room) (hc : c = 'E' ∨ c = 'e') :
    (afterSign f wide room (plain ds fs ++ c :: rest)).1 = false ∨
    ∃ y, afterSign f wide room (plain ds fs ++ c :: rest) =
      exponentPhase f wide ⟨y, true, false, c, c :: rest, room - (plain ds fs).length⟩ := by
  have hlt : (text ds).length = ds.length := by simp [text]
  cases fs with
  | none =>
    have ep : plain ds none = text ds := by simp [plain]
    rw [ep] at hl ⊢
    rw [hlt] at hl ⊢
    rcases int_any f ds hd room (.fin 0) '\x00' (c :: rest) (by omega) with ⟨h3, h4⟩ | ⟨y, c', h3⟩
    · left; rw [afterSign_of rfl, h4]; exact h3
    · right
      refine ⟨y, ?_⟩
      rw [show room - ds.length = (room - ds.length - 1) + 1 by omega, int_stop _ _ _ _ _ _ (Or.inr hc)] at h3
      have hd : decimalPhase f ⟨y, true, false, c, c :: rest, room - ds.length - 1 + 1⟩ =
          ⟨y, true, false, c, c :: rest, room - ds.length - 1 + 1⟩ := by
        unfold decimalPhase
        rw [if_neg]
        rcases hc with rfl | rfl <;> simp
      rw [afterSign_of h3]
      simp only [Bool.false_eq_true, if_false]
      rw [hd, show room - ds.length - 1 + 1 = room - ds.length by omega]
  | some fs =>
    obtain ⟨hf1, hf2⟩ := hf fs rfl
    have hlf : (text fs).length = fs.length := by simp [text]
    have ep : plain ds (some fs) ++ c :: rest = text ds ++ '.' :: (text fs ++ c :: rest) := by simp [plain]
    have el : (plain ds (some fs)).length = ds.length + (fs.length + 1) := by simp [plain, hlt, hlf]
    rw [ep]
    rw [el] at hl ⊢
    rcases int_any f ds hd room (.fin 0) '\x00' ('.' :: (text fs ++ c :: rest)) (by omega) with ⟨h3, h4⟩ | ⟨y, c', h3⟩
    · left; rw [afterSign_of rfl, h4]; exact h3
    · rw [show room - ds.length = (room - ds.length - 1) + 1 by omega, int_stop _ _ _ _ _ _ (Or.inl rfl)] at h3
      rw [afterSign_of h3]
      simp only [Bool.false_eq_true, if_false]
      obtain ⟨z, c'', h5⟩ := after_dec f M hM y (room - ds.length - 1) fs hf1 (c :: rest) (by omega) hf2
      rw [show room - ds.length - 1 - fs.length = (room - (ds.length + (fs.length + 1)) - 1) + 1 by omega,
        dec_stop _ _ _ _ _ _ _ hc] at h5
      rw [decimalPhase_dot h5]
      simp only
      split
      · left; exact exponentPhase_false f wide _ rfl
      · right
        refine ⟨add f y z, ?_⟩
        rw [show room - (ds.length + (fs.length + 1)) - 1 + 1 = room - (ds.length + (fs.length + 1)) by omega]

theorem exponentPhase_eq (f : Fmt) (wide : Bool) (y : Flt) (c : Char) (hc : c = 'E' ∨ c = 'e') (sg : List Char) (s : Int)
    (hs : Sign sg s) (cs : List Char) (hcs : sg = [] → cs.headD '\x00' ≠ '+' ∧ cs.headD '\x00' ≠ '-') (room : Nat) :
    exponentPhase f wide ⟨y, true, false, c, c :: (sg ++ cs), room⟩ =
      (if (expLoop (room - 1 - sg.length) cs 0).2.2 then ((expLoop (room - 1 - sg.length) cs 0).2.1, y)
       else if bad f (addExponent f wide y (expLoop (room - 1 - sg.length) cs 0).1 (s = 1)) then (false, y)
       else ((expLoop (room - 1 - sg.length) cs 0).2.1, addExponent f wide y (expLoop (room - 1 - sg.length) cs 0).1 (s = 1))) := by
  unfold exponentPhase
  rw [if_pos ⟨hc, rfl⟩]
  simp only [List.tail_cons, Bool.true_and]
  cases hs with
  | none =>
    obtain ⟨h1, h2⟩ := hcs rfl
    simp only [List.nil_append, h1, h2, or_self, if_false, List.length_nil, Nat.sub_zero, ne_eq, not_false_eq_true, decide_true]
  | plus => simp
  | minus => simp

theorem refused_exp (f : Fmt) (M : Nat) (hM : ∀ n, n < M → bad f (power f (n + 1)) = false) (wide : Bool) (room : Nat)
    (ds : List Nat) (fs : Option (List Nat)) (hd : Digits ds) (hf : ∀ l, fs = some l → Digits l ∧ l.length ≤ M)
    (c : Char) (hc : c = 'E' ∨ c = 'e') (sg : List Char) (s : Int) (hs : Sign sg s) (es : List Nat) (he : Digits es)
    (rest : List Char) (hl : (plain ds fs).length + es.length + 3 ≤ room)
    (hb : (512 ≤ number es) ∨ ∃ c' rest', rest = c' :: rest' ∧ digit? c' = none ∧ c' ≠ '\x00' ∧
      (sg = [] → es = [] → c' ≠ '+' ∧ c' ≠ '-') ∧ (plain ds fs).length + es.length + 3 < room) :
    (afterSign f wide room (plain ds fs ++ c :: (sg ++ (text es ++ rest)))).1 = false := by
  rcases before_exp f M hM wide room ds fs hd hf c (sg ++ (text es ++ rest)) (by omega) hc with h | ⟨y, h⟩
  · exact h
  · have hsl : sg.length ≤ 1 := by cases hs <;> simp
    rw [h, exponentPhase_eq f wide y c hc sg s hs]
    · rcases hb with hb | ⟨c', rest', rfl, h1, h2, h3, h4⟩
      · obtain ⟨x, hx⟩ := exp_large es he (room - (plain ds fs).length - 1 - sg.length) 0 rest (by omega) (by omega) hb
        rw [hx]; rfl
      · have hx := exp_bad es he (room - (plain ds fs).length - 1 - sg.length) 0 c' rest' (by omega) h1 h2
        split
        · exact hx
        · split
          · rfl
          · exact hx
    · intro hsg
      apply head_ok es he
      intro hes
      subst hes
      rcases hb with hb | ⟨c', rest', rfl, h1, h2, h3, h4⟩
      · simp [number] at hb
      · simpa using h3 hsg rfl

/-! ## Exact exponents -/

theorem lit_step (f : Fmt) (s v : Nat) (hl : literal f false s = .fin ((5 ^ s * 2 ^ s * 2 ^ f.K : Nat) : Int))
    (hv : v * 10 ^ s < 2 ^ f.p) (ht : v * 10 ^ s * 2 ^ f.K < 2 ^ f.top) :
    mul f (.fin ((v * 2 ^ f.K : Nat) : Int)) (literal f false s) = .fin ((v * 10 ^ s * 2 ^ f.K : Nat) : Int) := by
  have e : v * 10 ^ s = v * 5 ^ s * 2 ^ s := by rw [Nat.mul_assoc, ← Nat.mul_pow]
  rw [e] at hv ht ⊢
  rw [hl]
  apply mul_exact f v (5 ^ s) s _ ht
  exact Nat.lt_of_le_of_lt (Nat.le_mul_of_pos_right _ (pow_pos' _)) hv

theorem check_step {f : Fmt} {N : Nat} (h : Fits f N) (s v k : Nat)
    (hl : s ≤ k → literal f false s = .fin ((5 ^ s * 2 ^ s * 2 ^ f.K : Nat) : Int)) (hv : v * 10 ^ k < 2 ^ f.p) :
    ∃ v' k', checkStep f false (.fin ((v * 2 ^ f.K : Nat) : Int), k) s = (.fin ((v' * 2 ^ f.K : Nat) : Int), k') ∧
      v' * 10 ^ k' = v * 10 ^ k ∧ (k' = if s ≤ k then k - s else k) := by
  unfold checkStep
  by_cases hs : s ≤ k
  · have e : 10 ^ k = 10 ^ s * 10 ^ (k - s) := by rw [← Nat.pow_add]; congr 1; omega
    have h1 : v * 10 ^ s < 2 ^ f.p := by
      rw [e, ← Nat.mul_assoc] at hv
      exact Nat.lt_of_le_of_lt (Nat.le_mul_of_pos_right _ (Nat.pow_pos (by omega))) hv
    refine ⟨v * 10 ^ s, k - s, ?_, ?_, by simp [hs]⟩
    · simp only [ge_iff_le, hs, if_true]
      rw [lit_step f s v (hl hs) h1 (short_top h h1)]
    · rw [e, Nat.mul_assoc]
  · refine ⟨v, k, ?_, rfl, by simp [hs]⟩
    simp only [ge_iff_le, hs, if_false]

theorem add_exponent {f : Fmt} {N : Nat} (h : Fits f N) (wide : Bool) (v k : Nat) (hk : k < 16)
    (hl : ∀ s, s = 8 ∨ s = 4 ∨ s = 2 → literal f false s = .fin ((5 ^ s * 2 ^ s * 2 ^ f.K : Nat) : Int))
    (hv : v * 10 ^ k < 2 ^ f.p) :
    addExponent f wide (.fin ((v * 2 ^ f.K : Nat) : Int)) k true = .fin ((v * 10 ^ k * 2 ^ f.K : Nat) : Int) := by
  have skip : ∀ x s, 16 ≤ s → checkStep f false (x, k) s = (x, k) := by
    intro x s hs
    unfold checkStep
    rw [if_neg (by simp only; omega)]
  obtain ⟨v1, k1, c1, p1, q1⟩ := check_step h 8 v k (fun _ => hl 8 (by omega)) hv
  obtain ⟨v2, k2, c2, p2, q2⟩ := check_step h 4 v1 k1 (fun _ => hl 4 (by omega)) (by omega)
  obtain ⟨v3, k3, c3, p3, q3⟩ := check_step h 2 v2 k2 (fun _ => hl 2 (by omega)) (by omega)
  have hk3 : k3 < 2 := by
    by_cases a : 8 ≤ k <;> by_cases b : 4 ≤ k1 <;> by_cases c : 2 ≤ k2 <;> simp [a] at q1 <;> simp [b] at q2 <;>
      simp [c] at q3 <;> omega
  have hw : (if wide then [256, 128, 64] else []).foldl (checkStep f (!true)) (Flt.fin ((v * 2 ^ f.K : Nat) : Int), k) =
      (Flt.fin ((v * 2 ^ f.K : Nat) : Int), k) := by
    cases wide
    · rfl
    · simp only [if_true, List.foldl_cons, List.foldl_nil, Bool.not_true]
      rw [skip _ 256 (by omega), skip _ 128 (by omega), skip _ 64 (by omega)]
  unfold addExponent
  simp only
  rw [hw]
  simp only [List.foldl_cons, List.foldl_nil, Bool.not_true]
  rw [skip _ 32 (by omega), skip _ 16 (by omega), c1, c2, c3]
  simp only
  have e : v * 10 ^ k = v3 * 10 ^ k3 := by omega
  by_cases h1 : k3 = 1
  · subst h1
    simp only [ge_iff_le, Nat.le_refl, if_true]
    have h10 := ofInt_digit h 10 (by omega)
    rw [show ((10 : Nat) : Int) = 10 from rfl] at h10
    rw [h10]
    have h2 := mul_exact f v3 10 0 (by omega) (by simpa using short_top h (v := v3 * 10) (by omega))
    simp only [Nat.pow_zero, Nat.mul_one] at h2
    rw [h2, e, Nat.pow_one]
  · have : k3 = 0 := by omega
    subst this
    rw [if_neg (by omega), e, Nat.pow_zero, Nat.mul_one]

theorem lit32 : ∀ s, s = 8 ∨ s = 4 ∨ s = 2 → literal f32 false s = .fin ((5 ^ s * 2 ^ s * 2 ^ f32.K : Nat) : Int) := by
  intro s hs
  rcases hs with rfl | rfl | rfl <;> decide +kernel
theorem lit64 : ∀ s, s = 8 ∨ s = 4 ∨ s = 2 → literal f64 false s = .fin ((5 ^ s * 2 ^ s * 2 ^ f64.K : Nat) : Int) := by
  intro s hs
  rcases hs with rfl | rfl | rfl <;> decide +kernel

theorem exp_end (room e : Nat) : expLoop (room + 1) [] e = (e, true, false) := rfl

theorem whole_exp {f : Fmt} {N : Nat} (h : Fits f N) (wide : Bool) (room : Nat) (ds es : List Nat) (hd : Digits ds)
    (he : Digits es) (hl : ds.length + es.length + 3 ≤ room) (hk : number es < 16)
    (hlit : ∀ s, s = 8 ∨ s = 4 ∨ s = 2 → literal f false s = .fin ((5 ^ s * 2 ^ s * 2 ^ f.K : Nat) : Int))
    (hv : number ds * 10 ^ number es < 2 ^ f.p) (c : Char) (hc : c = 'E' ∨ c = 'e') (sg : List Char)
    (hs : Sign sg 1) :
    afterSign f wide room (text ds ++ c :: (sg ++ text es)) =
      (true, .fin ((number ds * 10 ^ number es * 2 ^ f.K : Nat) : Int)) := by
  have hv0 : number ds < 2 ^ f.p :=
    Nat.lt_of_le_of_lt (Nat.le_mul_of_pos_right _ (Nat.pow_pos (by omega))) hv
  obtain ⟨c', h1⟩ := int_digits h ds hd room 0 '\x00' (c :: (sg ++ text es)) (by omega) hv0
  rw [Nat.zero_mul, show room - ds.length = (room - ds.length - 1) + 1 by omega,
    int_stop _ _ _ _ _ _ (Or.inr hc)] at h1
  have hdp : ∀ x, decimalPhase f ⟨x, true, false, c, c :: (sg ++ text es), room - ds.length - 1 + 1⟩ =
      ⟨x, true, false, c, c :: (sg ++ text es), room - ds.length - 1 + 1⟩ := by
    intro x
    unfold decimalPhase
    rw [if_neg]
    rcases hc with rfl | rfl <;> simp
  have hsl : sg.length ≤ 1 := by cases hs <;> simp
  rw [afterSign_of h1]
  simp only [Bool.false_eq_true, if_false]
  rw [hdp, exponentPhase_eq f wide _ c hc sg 1 hs]
  · have hx := exp_digits es he (room - ds.length - 1 + 1 - 1 - sg.length) 0 [] (by omega)
      (by have : upTo 0 es = number es := rfl; omega)
    rw [List.append_nil, show room - ds.length - 1 + 1 - 1 - sg.length - es.length =
      (room - ds.length - 1 + 1 - 1 - sg.length - es.length - 1) + 1 by omega, exp_end] at hx
    rw [hx]
    simp only [Bool.false_eq_true, if_false, decide_true]
    rw [show upTo 0 ds = number ds from rfl, show upTo 0 es = number es from rfl,
      add_exponent h wide _ _ hk hlit hv, bad_fin]
    rfl
  · intro _
    have := head_ok es he [] (by intro _; decide)
    rwa [List.append_nil] at this

end Verif.FloatNum
