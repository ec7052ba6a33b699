import Verif.Proof.FloatPrint3
/-! ## Printing floating point numbers: the texts -/
set_option linter.unusedSimpArgs false
namespace Verif.FloatPrint
open Verif.Spec.FloatPrint (lastDigits lay place Rounded triple letter written)

theorem engineering_eq (e : Int) : engineering e = triple e := by
  rw [engineering, triple]
  split
  · rw [Int.tdiv_eq_ediv]
    simp only [show Int.sign 3 = 1 from rfl]
    split <;> omega
  · rw [Int.tdiv_eq_ediv]
    simp only [show Int.sign 3 = 1 from rfl]
    split <;> omega

theorem toDigits_length : ∀ n : Nat, n < 1000 → (Nat.toDigits 10 n).length = if n < 10 then 1 else if n < 100 then 2 else 3 := by
  decide +kernel

theorem expText_length (e : Int) (h : e.natAbs < 1000) : ((expText e).length : Int) = expSize e := by
  rw [expText, expSize]
  split
  · rfl
  · rw [List.length_append, toDigits_length _ h]
    simp only [List.length_cons, List.length_nil]
    repeat' split
    all_goals omega

theorem fixed_length (rnd : Rat → Rat) (y : Rat) (h0 : 0 ≤ y) (h1 : y < 10) (e p : Int) (hp : 0 ≤ p) : ((fixed rnd y e p).length : Int) = placeLen e p := by
  obtain ⟨k, rfl⟩ := Int.eq_ofNat_of_zero_le hp
  rw [fixed_place rnd y h0 h1 e k, place_length, stream_length, placeLen]

theorem placeLen_pos (e p : Int) (hp : 0 < p) : 1 ≤ placeLen e p := by
  rw [placeLen]; repeat' split
  all_goals omega

/-- The length of a number in a notation: right if the normalised number is right, and never too long. -/
theorem body_length (rnd : Rat → Rat) (n : Notation) (y : Rat) (e p : Int) (hp : 0 < p) (he : e.natAbs < 900) :
    ((body rnd n y e p).length : Int) ≤ bodyLen n e p ∧ ((0 ≤ y ∧ y < 10) → ((body rnd n y e p).length : Int) = bodyLen n e p) ∧
    (¬ (0 ≤ y ∧ y < 10) → '!' ∈ body rnd n y e p) := by
  have hf : ∀ e' : Int, ((fixed rnd y e' p).length : Int) ≤ placeLen e' p ∧ ((0 ≤ y ∧ y < 10) → ((fixed rnd y e' p).length : Int) = placeLen e' p) ∧
      (¬ (0 ≤ y ∧ y < 10) → '!' ∈ fixed rnd y e' p) := by
    intro e'
    by_cases hy : 0 ≤ y ∧ y < 10
    · have := fixed_length rnd y hy.1 hy.2 e' p (by omega)
      exact ⟨by omega, fun _ => this, fun h => absurd hy h⟩
    · have h1 : fixed rnd y e' p = ['!'] := by rw [fixed, if_pos (by grind)]
      rw [h1]
      have := placeLen_pos e' p hp
      exact ⟨by simpa using this, fun h => absurd h hy, fun _ => by simp⟩
  have hg : (engineering e).natAbs < 1000 := by rw [engineering_eq, triple]; omega
  have x1 := expText_length e (by omega)
  have x2 := expText_length _ hg
  have key : ∀ (e' : Int) (t : List Char) (l : Int), (t.length : Int) = l →
      ((fixed rnd y e' p ++ t).length : Int) ≤ placeLen e' p + l ∧ ((0 ≤ y ∧ y < 10) → ((fixed rnd y e' p ++ t).length : Int) = placeLen e' p + l) ∧
      (¬ (0 ≤ y ∧ y < 10) → '!' ∈ fixed rnd y e' p ++ t) := by
    intro e' t l hl
    obtain ⟨a, b, c⟩ := hf e'
    refine ⟨?_, ?_, ?_⟩
    · rw [List.length_append]; omega
    · intro h; have := b h; rw [List.length_append]; omega
    · intro h; exact List.mem_append_left _ (c h)
  cases n with
  | fixed => exact hf e
  | relative => exact hf e
  | exponent => exact key 0 _ _ x1
  | engineering => exact key _ _ _ x2
  | smart =>
    simp only [body, bodyLen]
    apply key
    split
    · rfl
    · exact x2
  | compact =>
    simp only [body, bodyLen]
    split
    · apply key
      split <;> rfl
    · exact key 0 _ _ x1

/-- What is chosen, in every arithmetic. -/
theorem choose_ok (rnd : Rat → Rat) (wide : Bool) (n : Notation) (s : Bool) (x : Rat) (P room : Int) (hP : 0 ≤ P) :
    ((choose rnd wide n s x P room).1 = 1 ∧ ((choose rnd wide n s x P room).2 = .zero ∨ (choose rnd wide n s x P room).2 = .noSpace)) ∨
    ∃ y e p, (choose rnd wide n s x P room).2 = .normal y e p ∧ 0 < p ∧ e.natAbs < 900 ∧ (choose rnd wide n s x P room).1 = sg s + bodyLen n e p ∧
      (choose rnd wide n s x P room).1 ≤ room := by
  have he := normalise_exp rnd wide x
  have key : ∀ (c : Int × Mode) (y : Rat) (e Q : Int), e.natAbs < 900 → 0 ≤ Q → c = settle n s Q room y e →
      (c.1 = 1 ∧ (c.2 = .zero ∨ c.2 = .noSpace)) ∨ ∃ y e p, c.2 = .normal y e p ∧ 0 < p ∧ e.natAbs < 900 ∧ c.1 = sg s + bodyLen n e p ∧ c.1 ≤ room := by
    intro c y e Q h1 h2 hc
    rw [settle] at hc
    split at hc
    · subst hc; exact .inl ⟨rfl, .inl rfl⟩
    · split at hc
      · subst hc; exact .inl ⟨rfl, .inr rfl⟩
      · subst hc
        obtain ⟨a, b⟩ := sizeOf_ok n e s Q room h2 (by omega)
        exact .inr ⟨y, e, _, rfl, by omega, h1, a, b⟩
  generalize hc : choose rnd wide n s x P room = c
  rw [choose] at hc
  split at hc
  · refine key c _ _ _ ?_ ?_ hc.symm
    · omega
    · simp only [precisionAfter]
      repeat' split
      all_goals omega
  · exact key c _ _ _ (by omega) hP hc.symm

/-- In exact arithmetic the digits are those of the number, rounded. -/
theorem choose_id (wide : Bool) (n : Notation) (s : Bool) (x : Rat) (P room : Int) (hP : 0 ≤ P) (hP2 : P ≤ 255) (h0 : 0 < x)
    (hlo : T (-width wide) < x) (hhi : x < T (width wide)) (y : Rat) (e p : Int) (hc : (choose id wide n s x P room).2 = .normal y e p) :
    0 < p ∧ 0 ≤ y ∧ y < 10 ∧ ∃ N, Rounded x p.toNat e N ∧ stream id p.toNat y = lastDigits p.toNat N := by
  obtain ⟨hx, h1, h2, h3⟩ := normalise_id wide x h0 hlo hhi
  have he := normalise_exp id wide x
  rw [choose] at hc
  generalize normalise id wide x = w at *
  obtain ⟨m, e0⟩ := w
  simp only at hx h1 h2 h3 he hc
  have hb := sizeOf_le n e0 s P room hP
  generalize hr : sizeOf n e0 s P room = r at *
  obtain ⟨sz, q⟩ := r
  simp only at hc hb
  have done : ∀ (y0 : Rat) (e1 Q : Int), (settle n s Q room y0 e1).2 = .normal y e p →
      0 < (sizeOf n e1 s Q room).2 ∧ y0 = y ∧ e1 = e ∧ (sizeOf n e1 s Q room).2 = p := by
    intro y0 e1 Q h
    rw [settle] at h
    split at h
    · cases h
    · split at h
      · cases h
      · simp only [Mode.normal.injEq] at h
        exact ⟨by omega, h.1, h.2.1, h.2.2⟩
  -- the case without a carry
  have caseA : ∀ y0 : Rat, y0 < 10 → (0 ≤ q → y0 = roundUp id m q) → (settle n s P room y0 e0).2 = .normal y e p →
      0 < p ∧ 0 ≤ y ∧ y < 10 ∧ ∃ N, Rounded x p.toNat e N ∧ stream id p.toNat y = lastDigits p.toNat N := by
    intro y0 hy0 hq h
    obtain ⟨a, b, c, d⟩ := done y0 e0 P h
    rw [hr] at a d
    simp only at a d
    subst d c b
    rw [hq (by omega), roundUp_id _ _ (by omega) (by omega)] at hy0 ⊢
    obtain ⟨k, hk⟩ : ∃ k : Nat, q = ((k + 1 : Nat) : Int) := ⟨(q - 1).toNat, by omega⟩
    subst hk
    obtain ⟨N, n1, n2⟩ := rounded_plain x m e0 k hx h1 hy0
    have := T_pos (-((k + 1 : Nat) : Int))
    exact ⟨by omega, by grind, hy0, N, n1, n2⟩
  -- the case with a carry
  have caseB : ∀ (c : Nat) (Q : Int), 10 ≤ m + T (-(c : Int)) * 5 → (sizeOf n (e0 + 1) s Q room).2 ≤ c + 1 →
      (settle n s Q room (id ((m + T (-(c : Int)) * 5) / 10)) (e0 + 1)).2 = .normal y e p →
      0 < p ∧ 0 ≤ y ∧ y < 10 ∧ ∃ N, Rounded x p.toNat e N ∧ stream id p.toNat y = lastDigits p.toNat N := by
    intro c Q hy hle h
    obtain ⟨a, b, c', d⟩ := done _ (e0 + 1) Q h
    rw [d] at a hle
    subst c' b
    obtain ⟨k, hk⟩ : ∃ k : Nat, p = ((k + 1 : Nat) : Int) := ⟨(p - 1).toNat, by omega⟩
    subst hk
    obtain ⟨N, n1, n2, n3, n4⟩ := rounded_over x m e0 k c hx h2 hy (by omega)
    exact ⟨by omega, n3, n4, N, n1, n2⟩
  simp only [corrected, precisionAfter] at hc
  by_cases hn : n = .fixed ∨ n = .relative
  · simp only [if_pos hn] at hc
    by_cases hq : q ≥ 0
    · simp only [if_pos hq] at hc
      split at hc
      · rename_i hy
        rw [roundUp_id _ _ (by omega) (by omega)] at hy hc
        simp only [show ¬ (P > P) by omega, if_false] at hc
        have hnext : (sizeOf n (e0 + 1) s P room).2 ≤ q + 1 := by
          rcases hn with rfl | rfl
          · have := sizeFixed_next e0 s P room
            simp only [sizeOf] at hr
            rw [hr] at this
            exact this hq
          · have := sizeRelative_next e0 s P room hP
            simp only [sizeOf] at hr
            rw [hr] at this
            exact this hq
        obtain ⟨c, hc'⟩ := Int.eq_ofNat_of_zero_le hq
        subst hc'
        exact caseB c P hy hnext hc
      · rename_i hy
        exact caseA _ (by grind) (fun _ => rfl) hc
    · simp only [if_neg hq] at hc
      -- no room: the number has its integer part, and is below ten
      have hm : m < 10 := by
        rcases Rat.le_iff_lt_or_eq.mp h2 with h | h
        · exact h
        · exfalso
          have he0 := h3 h
          rcases hn with rfl | rfl
          · obtain ⟨a, l, b1, b2, b3, b4⟩ := sizeFixed_val e0 s P room
            simp only [sizeOf] at hr
            rw [hr] at b4
            simp only at b4
            omega
          · obtain ⟨a, l, w, b1, b2, b3, b4⟩ := sizeRelative_val e0 s P room
            simp only [sizeOf] at hr
            rw [hr] at b4
            simp only at b4
            omega
      rw [if_neg (by grind)] at hc
      exact caseA m hm (fun h => absurd h hq) hc
  · simp only [if_neg hn] at hc
    by_cases hq : q ≥ 0
    · simp only [if_pos hq] at hc
      split at hc
      · rename_i hy
        rw [roundUp_id _ _ (by omega) (by omega)] at hy hc
        have hle := sizeOf_le_prec n hn (e0 + 1) s (if q + 1 > P then P else q + 1) room
        obtain ⟨c, hc'⟩ := Int.eq_ofNat_of_zero_le hq
        subst hc'
        exact caseB c _ hy (Int.le_trans hle (by split <;> omega)) hc
      · rename_i hy
        exact caseA _ (by grind) (fun _ => rfl) hc
    · simp only [if_neg hq] at hc
      split at hc
      · rename_i hy
        rw [roundUp_id _ _ (by omega) (by omega)] at hy hc
        have hle := sizeOf_le_prec n hn (e0 + 1) s (if 2 > P then P else 2) room
        exact caseB 1 _ hy (Int.le_trans hle (by split <;> omega)) hc
      · exact caseA _ (by grind) (fun h => absurd h hq) hc

/-- The text of a chosen number in exact arithmetic. -/
theorem body_id (n : Notation) (y : Rat) (h0 : 0 ≤ y) (h1 : y < 10) (e : Int) (p N : Nat) (hs : stream id p y = lastDigits p N) :
    body id n y e p = written n (lastDigits p N) e := by
  have hf : ∀ e', fixed id y e' p = place (lastDigits p N) e' := by intro e'; rw [fixed_place id y h0 h1, hs]
  have hx : ∀ e', expText e' = Verif.Spec.FloatPrint.power e' := fun _ => rfl
  have hl : ∀ g : Int, g % 3 = 0 → letter g = if g ≠ 0 ∧ inRange g = true then some (symbol g) else none := by
    intro g hg
    by_cases hr : inRange g = true
    · have hr' : -24 ≤ g ∧ g ≤ 24 := by simpa [inRange] using hr
      have : g = -24 ∨ g = -21 ∨ g = -18 ∨ g = -15 ∨ g = -12 ∨ g = -9 ∨ g = -6 ∨ g = -3 ∨ g = 0 ∨ g = 3 ∨ g = 6 ∨ g = 9 ∨ g = 12 ∨ g = 15 ∨ g = 18 ∨ g = 21 ∨ g = 24 := by omega
      rcases this with h | h | h | h | h | h | h | h | h | h | h | h | h | h | h | h | h <;> subst h <;> decide
    · rw [if_neg (by intro h; exact hr h.2)]
      have hr' : ¬ (-24 ≤ g ∧ g ≤ 24) := by simpa [inRange] using hr
      unfold letter
      split <;> first | rfl | omega
  have htr : triple e % 3 = 0 := by rw [triple]; omega
  cases n with
  | fixed => exact hf e
  | relative => exact hf e
  | exponent => simp only [body, written, hf, hx]
  | engineering => simp only [body, written, hf, hx, engineering_eq]
  | smart =>
    simp only [body, written, hf, hx, engineering_eq, hl _ htr]
    congr 1
    split <;> rfl
  | compact =>
    simp only [body, written, hf, hx, engineering_eq, hl _ htr]
    have : (inRange (triple e) = true) = (-24 ≤ triple e ∧ triple e ≤ 24) := by simp [inRange]
    by_cases hr : inRange (triple e) = true
    · have hr2 := hr
      rw [this] at hr2
      rw [if_pos hr, if_pos hr2]
      congr 1
      by_cases hz : triple e = 0
      · simp [hz]
      · simp [hz, hr]
    · have hr2 := hr
      rw [this] at hr2
      rw [if_neg hr, if_neg hr2]

end Verif.FloatPrint
