import Verif.Model.TextConvert
import Verif.Props.CStrings
/-! # C93: texts as values -/
set_option linter.unusedSimpArgs false
namespace Verif.Props.TextConvert
open Verif.TextConvert
open Verif.CStrings (length strcpy compareNoCaseN Bytes strcpy_eq length_eq)
open Verif.Spec.CStrings (Holds Written lower)

private theorem strncpy_short (s r : List Nat) : ∀ (d : List Nat), (∀ c ∈ s, 0 < c) → d.length ≤ s.length →
    strncpy d.length false d (s ++ 0 :: r) = some (s.take d.length) := by
  induction s with
  | nil => intro d _ h; have : d = [] := List.eq_nil_of_length_eq_zero (by simpa using h); subst this; rfl
  | cons c s ih =>
    intro d hs h
    cases d with
    | nil => rfl
    | cons x d =>
      have hc : (c == 0) = false := by have := hs c (by simp); simp; omega
      simp only [List.length_cons, List.cons_append, strncpy, hc]
      rw [ih d (fun a ha => hs a (List.mem_cons_of_mem _ ha)) (by simpa using h)]
      simp

/-- **C93.** A text (that of a text, an integer, a float or a boolean) converted to an array of two or more characters is in the array, with
its end; what does not fit is cut, and nothing outside the array changes.  If it fits, the bytes after the end are as before. -/
theorem c93_array_partial (dst token s : List Nat) (h : Holds token s) (hd : 2 ≤ dst.length) :
    ∃ d, toArray dst token = some d ∧ d.length = dst.length ∧ Holds d (s.take (dst.length - 1)) ∧
      (s.length < dst.length → Written dst d s) := by
  obtain ⟨hs, r, rfl⟩ := h
  unfold toArray
  rw [length_eq s r hs]
  simp only [Option.bind_some]
  by_cases hl : s.length ≥ dst.length
  · rw [if_pos hl, strncpy_short s r dst (fun c hc => (hs c hc).1) hl, Option.map_some, if_pos (by omega)]
    refine ⟨_, rfl, by simp; omega, ⟨fun c hc => hs c (List.mem_of_mem_take hc), [], ?_⟩, fun h => absurd h (by omega)⟩
    obtain ⟨n, hn⟩ : ∃ n, dst.length = n + 1 := ⟨dst.length - 1, by omega⟩
    rw [hn]
    simp only [Nat.add_sub_cancel]
    apply List.ext_getElem?
    intro i
    rw [List.getElem?_set]
    by_cases hi : n = i
    · subst hi
      have : min n s.length = n := by omega
      simp [List.getElem?_append, List.length_take, this, show n < s.length by omega]
      omega
    · rw [if_neg hi, List.getElem?_append]
      by_cases h2 : i < n
      · simp [List.getElem?_take, List.length_take, h2, show i < n + 1 by omega, show i < s.length by omega]
        intro h5; omega
      · have h3 : ¬ i < n + 1 := by omega
        have h4 : min n s.length = n := by omega
        obtain ⟨m, hm⟩ : ∃ m, i - n = m + 1 := ⟨i - n - 1, by omega⟩
        simp [List.getElem?_take, List.length_take, h2, h3, h4, hm]
  · rw [if_neg hl, strcpy_eq s r dst hs (by omega)]
    refine ⟨_, rfl, by simp; omega, ⟨fun c hc => hs c (List.mem_of_mem_take hc), ?_⟩, fun h => ⟨rfl, h⟩⟩
    rw [List.take_of_length_le (by omega)]
    exact ⟨_, rfl⟩

/-- **C93 (disagreement).** In an array of one character a text that is not empty has no end: whoever reads it as a text goes outside. -/
theorem c93_one_fails (x c : Nat) (token s : List Nat) (h : Holds token (c :: s)) :
    toArray [x] token = some [c] ∧ length [c] = none := by
  obtain ⟨hs, r, rfl⟩ := h
  have hc := hs c (by simp)
  refine ⟨?_, by simp [length]; omega⟩
  unfold toArray
  rw [length_eq (c :: s) r hs]
  have hc0 : c ≠ 0 := by omega
  simp [strncpy]

/-- **C93.** A text is true exactly when it is `true`, `yes` or `1`, with letters of any case. -/
theorem c93_bool_partial (token s : List Nat) (h : Holds token s) :
    ∃ b, toBool token = some b ∧
      (b = true ↔ lower s = "true".toList.map Char.toNat ∨ lower s = "1".toList.map Char.toNat ∨ lower s = "yes".toList.map Char.toNat) := by
  have hlen := Verif.Props.CStrings.c76_length token s h
  have step : ∀ (v t : List Nat), Holds v t → lower t = t → ∀ vs b, boolLoop token vs = some b →
      ∃ b', boolLoop token ((v, t.length) :: vs) = some b' ∧ (b' = true ↔ lower s = t ∨ b = true) := by
    intro v t hv ht vs b hb
    simp only [boolLoop, hlen, Option.bind_some]
    have hcmp := Verif.Props.CStrings.c76_compare_no_case t.length token v s t h hv
    by_cases hl : s.length = t.length
    · rw [if_pos hl]
      rw [← hl] at hcmp ⊢
      rw [List.take_length, hl, List.take_length, ht, ← hl] at hcmp
      cases hc : compareNoCaseN s.length token v with
      | none =>
        exfalso
        have : ∀ (n : Nat) (a p b q : List Nat), n ≤ a.length → n ≤ b.length → compareNoCaseN n (a ++ p) (b ++ q) ≠ none := by
          intro n
          induction n with
          | zero => intro a p b q _ _; simp [compareNoCaseN]
          | succ n ih =>
            intro a p b q ha hb
            cases a with
            | nil => simp at ha
            | cons x a => cases b with
              | nil => simp at hb
              | cons y b =>
                simp only [List.cons_append, compareNoCaseN]
                split
                · simp
                · split
                  · simp
                  · split
                    · simp
                    · exact ih a p b q (by simpa using ha) (by simpa using hb)
        obtain ⟨_, r, rfl⟩ := h
        obtain ⟨_, u, rfl⟩ := hv
        exact this s.length s _ t _ (Nat.le_refl _) (by omega) hc
      | some k =>
        rw [hc] at hcmp
        simp only [Option.some.injEq] at hcmp
        simp only [Option.bind_some]
        by_cases hk : k = 0
        · rw [if_pos hk]; exact ⟨true, rfl, by simp [hcmp.1.mp hk]⟩
        · rw [if_neg hk, hb]
          refine ⟨b, rfl, ?_⟩
          have : lower s ≠ t := fun e => hk (hcmp.1.mpr e)
          simp [this]
    · rw [if_neg hl, hb]
      refine ⟨b, rfl, ?_⟩
      have : lower s ≠ t := by
        intro e; apply hl; rw [← e]; simp [lower]
      simp [this]
  obtain ⟨b3, e3, h3⟩ := step [121, 101, 115, 0] [121, 101, 115] ⟨by decide, [], rfl⟩ (by decide) [] false rfl
  obtain ⟨b2, e2, h2⟩ := step [49, 0] [49] ⟨by decide, [], rfl⟩ (by decide) _ b3 e3
  obtain ⟨b1, e1, h1⟩ := step [116, 114, 117, 101, 0] [116, 114, 117, 101] ⟨by decide, [], rfl⟩ (by decide) _ b2 e2
  refine ⟨b1, e1, ?_⟩
  rw [h1, h2, h3]
  have q1 : "true".toList.map Char.toNat = [116, 114, 117, 101] := by decide
  have q2 : "1".toList.map Char.toNat = [49] := by decide
  have q3 : "yes".toList.map Char.toNat = [121, 101, 115] := by decide
  rw [q1, q2, q3]
  simp

/-- **C93 (disagreement).** Every other text, also one that is no boolean at all, is read as false with success: for example `on`, `2`, `tru`. -/
theorem c93_garbage_fails : toBool [111, 110, 0] = some false ∧ toBool [50, 0] = some false ∧ toBool [116, 114, 117, 0] = some false := by decide

/-- **C93.** A boolean written to an array of six or more characters, or to a text, is read back as it was. -/
theorem c93_bool_round (b : Bool) (dst : List Nat) (hd : 6 ≤ dst.length) :
    ∃ d, toArray dst (boolText b) = some d ∧ toBool d = some b := by
  have hb : Holds (boolText b) (if b then [116, 114, 117, 101] else [102, 97, 108, 115, 101]) := by
    cases b
    · exact ⟨by decide, [], rfl⟩
    · exact ⟨by decide, [], rfl⟩
  obtain ⟨d, e, _, hh, _⟩ := c93_array_partial dst (boolText b) _ hb (by omega)
  refine ⟨d, e, ?_⟩
  rw [List.take_of_length_le (by cases b <;> simp <;> omega)] at hh
  obtain ⟨b', e', hb'⟩ := c93_bool_partial d _ hh
  rw [e']
  cases b <;> cases b' <;> first | rfl | (exfalso; revert hb'; decide)

/-- **C93 (disagreement).** In an array of two, three or four characters `true` is cut, and is then false; both conversions succeed. -/
theorem c93_bool_short_fails : ∀ n, 2 ≤ n → n ≤ 4 → ∀ dst : List Nat, dst.length = n →
    ∃ d, toArray dst (boolText true) = some d ∧ toBool d = some false := by
  intro n h2 h4 dst hl
  have hb : Holds (boolText true) [116, 114, 117, 101] := ⟨by decide, [], rfl⟩
  obtain ⟨d, e, _, hh, _⟩ := c93_array_partial dst (boolText true) _ hb (by omega)
  refine ⟨d, e, ?_⟩
  obtain ⟨b', e', hb'⟩ := c93_bool_partial d _ hh
  rw [e']
  rw [hl] at hb'
  have : n = 2 ∨ n = 3 ∨ n = 4 := by omega
  rcases this with rfl | rfl | rfl <;> cases b' <;> first | rfl | (exfalso; revert hb'; decide)

/-- **C93.** A text read into an empty `StreamString` is that text. -/
theorem c93_stream_partial (token s : List Nat) (h : Holds token s) : toStream ⟨[], 0⟩ token = some ⟨s, s.length⟩ := by
  obtain ⟨hs, r, rfl⟩ := h
  simp [toStream, length_eq s r hs, Str.write]

/-- **C93 (disagreement).** Read into a `StreamString` that has something and is at its end, it is added to what is there: a value
that is read twice into the same text is there twice. -/
theorem c93_append_fails (old : List Nat) (token s : List Nat) (h : Holds token s) :
    toStream ⟨old, old.length⟩ token = some ⟨old ++ s, old.length + s.length⟩ ∧
    (toStream ⟨[], 0⟩ token).bind (fun x => toStream x token) = some ⟨s ++ s, s.length + s.length⟩ := by
  obtain ⟨hs, r, rfl⟩ := h
  simp [toStream, length_eq s r hs, Str.write]

/-- **C93 (disagreement).** Read into a `StreamString` that is at any place of what it has, it is written over as many characters, and the rest
stays. -/
theorem c93_over_fails (a b c : List Nat) (token s : List Nat) (h : Holds token s) (hb : b.length = s.length) :
    toStream ⟨a ++ b ++ c, a.length⟩ token = some ⟨a ++ s ++ c, a.length + s.length⟩ := by
  obtain ⟨hs, r, rfl⟩ := h
  simp [toStream, length_eq s r hs, Str.write, List.drop_append, hb.symm]

/-- **C93.** A `StreamString` copied to an empty one is the same, with any bytes. -/
theorem c93_copy (s : Str) : (streamToStream ⟨[], 0⟩ s).bytes = s.bytes := by simp [streamToStream, Str.write]

/-- **C93 (disagreement).** An array of characters copied to a shorter one writes outside it; to a `char *` a text is written
whatever its memory is. -/
theorem c93_overflow_fails (dst src : List Nat) (h : dst.length < src.length) : arrayToArray dst src = none ∧
    ∀ s, Holds src s → dst.length ≤ s.length → toPointer dst src = none := by
  constructor
  · have : ∀ (n : Nat) (dst src : List Nat), dst.length < n → n ≤ src.length → memcpy n dst src = none := by
      intro n
      induction n with
      | zero => intro d s h; omega
      | succ n ih =>
        intro d s h1 h2
        cases d with
        | nil => simp [memcpy]
        | cons x d => cases s with
          | nil => simp at h2
          | cons y s => simp only [memcpy]; rw [ih d s (by simpa using h1) (by simpa using h2)]; rfl
    exact this _ _ _ h (Nat.le_refl _)
  · intro s hs hl
    obtain ⟨hb, r, rfl⟩ := hs
    clear h
    unfold toPointer
    induction s generalizing dst with
    | nil => have : dst = [] := List.eq_nil_of_length_eq_zero (by simpa using hl); subst this; rfl
    | cons c s ih =>
      cases dst with
      | nil => rfl
      | cons x d =>
        have hc := (hb c (by simp)).1
        simp only [List.cons_append, strcpy]
        rw [if_neg (by omega), ih d (by simpa using hl) (fun a ha => hb a (List.mem_cons_of_mem _ ha))]
        rfl

/-- **C93.** An array of characters copied to one that is not shorter: its bytes are there, the rest is as before. -/
theorem c93_array_copy_partial (dst src : List Nat) (h : src.length ≤ dst.length) :
    arrayToArray dst src = some (src ++ dst.drop src.length) := by
  unfold arrayToArray
  induction src generalizing dst with
  | nil => rfl
  | cons c s ih =>
    cases dst with
    | nil => simp at h
    | cons x d =>
      simp only [List.length_cons, memcpy]
      rw [ih d (by simpa using h)]
      rfl

example : toArray [9, 9, 9, 9] [97, 98, 99, 100, 101, 0] = some [97, 98, 99, 0] := by decide
example : toArray [9, 9, 9, 9] [97, 98, 0] = some [97, 98, 0, 9] := by decide
example : toBool [84, 114, 85, 101, 0] = some true ∧ toBool [89, 69, 83, 0] = some true ∧ toBool [49, 0] = some true := by decide
example : Holds [84, 114, 85, 101, 0, 7] [84, 114, 85, 101] := ⟨by decide, [7], rfl⟩

end Verif.Props.TextConvert
