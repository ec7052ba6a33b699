import Verif.Model.HttpUrl
import Verif.Spec.HttpUrl
set_option linter.unusedSimpArgs false
set_option linter.unusedVariables false
set_option maxRecDepth 8000
/-! Proofs for C60. -/
namespace Verif.HttpUrl
open Verif.Token (getToken getTokenLoop searchChar Res)
open Verif.Spec.HttpUrl

theorem loop_word (term : List Char) (c : Char) (rest : List Char) (hc : c ∈ term) :
    ∀ (w out : List Char), (∀ x ∈ w, x ∉ term ∧ x ≠ '\x00') → out ++ w ≠ [] → out.length + w.length < 2 ^ 32 →
    getTokenLoop term term (w ++ c :: rest) out.length out = ⟨true, out ++ w, c, rest⟩
  | [], out, _, hne, _ => by
    have ho : out ≠ [] := by simpa using hne
    have hl : (out.length != 0) = true := by
      cases out with
      | nil => exact absurd rfl ho
      | cons _ _ => rfl
    simp [getTokenLoop, searchChar, hc, hl]
  | x :: w, out, hw, _, hl => by
    obtain ⟨h1, h2⟩ := hw x (by simp)
    simp only [List.length_cons] at hl
    have hs : searchChar term x = false := by simp [searchChar, h1, h2]
    rw [List.cons_append, getTokenLoop]
    simp only [hs, Bool.false_or, beq_iff_eq, h2, if_false, Bool.not_false, if_true]
    rw [show (out.length + 1) % 2 ^ 32 = (out ++ [x]).length by simp; omega,
      loop_word term c rest hc w (out ++ [x]) (fun y hy => hw y (List.mem_cons_of_mem _ hy)) (by simp) (by simp; omega)]
    simp

theorem loop_end (term : List Char) :
    ∀ (w out : List Char), (∀ x ∈ w, x ∉ term ∧ x ≠ '\x00') → out.length + w.length < 2 ^ 32 →
    getTokenLoop term term w out.length out = ⟨(out ++ w).length != 0, out ++ w, '\x00', []⟩
  | [], out, _, _ => by simp [getTokenLoop]
  | x :: w, out, hw, hl => by
    obtain ⟨h1, h2⟩ := hw x (by simp)
    simp only [List.length_cons] at hl
    have hs : searchChar term x = false := by simp [searchChar, h1, h2]
    rw [getTokenLoop]
    simp only [hs, Bool.false_or, beq_iff_eq, h2, if_false, Bool.not_false, if_true]
    rw [show (out.length + 1) % 2 ^ 32 = (out ++ [x]).length by simp; omega,
      loop_end term w (out ++ [x]) (fun y hy => hw y (List.mem_cons_of_mem _ hy)) (by simp; omega)]
    simp

theorem loop_line (term skip : List Char) :
    ∀ (w out : List Char), (∀ x ∈ w, x ∉ term ∧ x ∉ skip ∧ x ≠ '\x00') → out.length + w.length < 2 ^ 32 →
    getTokenLoop term skip w out.length out = ⟨(out ++ w).length != 0, out ++ w, '\x00', []⟩
  | [], out, _, _ => by simp [getTokenLoop]
  | x :: w, out, hw, hl => by
    obtain ⟨h1, h3, h2⟩ := hw x (by simp)
    simp only [List.length_cons] at hl
    have hs : searchChar term x = false := by simp [searchChar, h1, h2]
    have hk : searchChar skip x = false := by simp [searchChar, h3, h2]
    rw [getTokenLoop]
    simp only [hs, hk, Bool.false_or, beq_iff_eq, h2, if_false, Bool.not_false, if_true]
    rw [show (out.length + 1) % 2 ^ 32 = (out ++ [x]).length by simp; omega,
      loop_line term skip w (out ++ [x]) (fun y hy => hw y (List.mem_cons_of_mem _ hy)) (by simp; omega)]
    simp

theorem word_token (term w rest : List Char) (c : Char) (hc : c ∈ term) (hw : ∀ x ∈ w, x ∉ term ∧ x ≠ '\x00') (hne : w ≠ [])
    (hl : w.length < 2 ^ 32) : getToken term none (w ++ c :: rest) = ⟨true, w, c, rest⟩ := by
  have := loop_word term c rest hc w [] hw (by simpa using hne) (by simpa using hl)
  simpa [getToken] using this

theorem word_end (term w : List Char) (hw : ∀ x ∈ w, x ∉ term ∧ x ≠ '\x00') (hl : w.length < 2 ^ 32) :
    getToken term none w = ⟨w.length != 0, w, '\x00', []⟩ := by
  have := loop_end term w [] hw (by simpa using hl)
  simpa [getToken] using this

theorem skip_term (term s : List Char) (c : Char) (hc : c ∈ term) : getToken term none (c :: s) = getToken term none s := by
  simp [getToken, getTokenLoop, searchChar, hc]

theorem token_some (term s : List Char) : getToken term (some term) s = getToken term none s := rfl

/-! ## Codes -/

theorem hexValue_facts {c : Char} {x : Nat} (h : hexValue c = some x) : hexDecode c = x ∧ x < 16 := by
  unfold hexValue at h
  unfold hexDecode
  simp only [Char.le_def, UInt32.le_iff_toNat_le] at h
  have e : ∀ d : Char, d.val.toNat = d.toNat := fun _ => rfl
  simp only [e] at h
  have k1 : '0'.toNat = 48 := rfl
  have k2 : '9'.toNat = 57 := rfl
  have k3 : 'a'.toNat = 97 := rfl
  have k4 : 'f'.toNat = 102 := rfl
  have k5 : 'A'.toNat = 65 := rfl
  have k6 : 'F'.toNat = 70 := rfl
  simp only [k1, k2, k3, k4, k5, k6] at h
  dsimp only
  split at h
  · rename_i hr
    cases h
    rw [if_pos hr]
    omega
  · rename_i hr
    split at h
    · rename_i hr2
      cases h
      rw [if_neg hr, if_pos hr2]
      omega
    · rename_i hr2
      split at h
      · rename_i hr3
        cases h
        rw [if_neg hr, if_neg hr2, if_pos hr3]
        omega
      · cases h

theorem decode_percent {e t : List Char} (h : Percent e t) : decode e = some t := by
  induction h with
  | nil => rfl
  | plain hc _ ih => rw [decode.eq_def]; simp [hc, ih]
  | @code a b x y e t ha hb _ ih =>
    obtain ⟨h1, h2⟩ := hexValue_facts ha
    obtain ⟨h3, h4⟩ := hexValue_facts hb
    rw [decode.eq_def]
    simp only [if_true, ih, Option.map_some, h1, h3]
    rw [char8, show ((x : Int) * 16 + y) % 256 = ((16 * x + y : Nat) : Int) by omega, Int.toNat_natCast]

theorem Spec.Percent.append {e t e' t' : List Char} (h : Percent e t) (h' : Percent e' t') : Percent (e ++ e') (t ++ t') := by
  induction h with
  | nil => exact h'
  | plain hc _ ih => exact .plain hc ih
  | code ha hb _ ih => exact .code ha hb ih

theorem Spec.Percent.length {e t : List Char} (h : Percent e t) : t.length ≤ e.length := by
  induction h with
  | nil => simp
  | plain hc _ ih => simp; omega
  | code ha hb _ ih => simp; omega

/-- The printed code of each special character. -/
theorem print_special (lit : List Char → Nat) (c : Char) (h : c ∈ http2Convert) :
    ∃ a b x y, Format.printf lit ['%', 's', '%', '2', 'x'] [.scalar (.text 1 ['%']), .scalar (.int ⟨8, false⟩ c.toNat)] = some (true, ['%', a, b]) ∧
      hexValue a = some x ∧ hexValue b = some y ∧ Char.ofNat (16 * x + y) = c ∧ a ∉ separators ∧ b ∉ separators ∧
      a ∉ http2Convert ∧ b ∉ http2Convert := by
  simp only [http2Convert, List.mem_cons, List.not_mem_nil, or_false] at h
  rcases h with h | h | h | h | h | h | h | h | h | h | h | h | h | h | h | h | h | h | h | h
  · subst h; exact ⟨'2', '0', 2, 0, rfl, rfl, rfl, rfl, by decide, by decide, by decide, by decide⟩
  · subst h; exact ⟨'2', '3', 2, 3, rfl, rfl, rfl, rfl, by decide, by decide, by decide, by decide⟩
  · subst h; exact ⟨'2', '5', 2, 5, rfl, rfl, rfl, rfl, by decide, by decide, by decide, by decide⟩
  · subst h; exact ⟨'3', 'C', 3, 12, rfl, rfl, rfl, rfl, by decide, by decide, by decide, by decide⟩
  · subst h; exact ⟨'3', 'E', 3, 14, rfl, rfl, rfl, rfl, by decide, by decide, by decide, by decide⟩
  · subst h; exact ⟨'2', '6', 2, 6, rfl, rfl, rfl, rfl, by decide, by decide, by decide, by decide⟩
  · subst h; exact ⟨'7', 'E', 7, 14, rfl, rfl, rfl, rfl, by decide, by decide, by decide, by decide⟩
  · subst h; exact ⟨'2', 'C', 2, 12, rfl, rfl, rfl, rfl, by decide, by decide, by decide, by decide⟩
  · subst h; exact ⟨'2', '4', 2, 4, rfl, rfl, rfl, rfl, by decide, by decide, by decide, by decide⟩
  · subst h; exact ⟨'2', 'B', 2, 11, rfl, rfl, rfl, rfl, by decide, by decide, by decide, by decide⟩
  · subst h; exact ⟨'3', 'D', 3, 13, rfl, rfl, rfl, rfl, by decide, by decide, by decide, by decide⟩
  · subst h; exact ⟨'3', 'A', 3, 10, rfl, rfl, rfl, rfl, by decide, by decide, by decide, by decide⟩
  · subst h; exact ⟨'2', 'F', 2, 15, rfl, rfl, rfl, rfl, by decide, by decide, by decide, by decide⟩
  · subst h; exact ⟨'3', 'F', 3, 15, rfl, rfl, rfl, rfl, by decide, by decide, by decide, by decide⟩
  · subst h; exact ⟨'5', 'B', 5, 11, rfl, rfl, rfl, rfl, by decide, by decide, by decide, by decide⟩
  · subst h; exact ⟨'5', 'D', 5, 13, rfl, rfl, rfl, rfl, by decide, by decide, by decide, by decide⟩
  · subst h; exact ⟨'2', '2', 2, 2, rfl, rfl, rfl, rfl, by decide, by decide, by decide, by decide⟩
  · subst h; exact ⟨'4', '0', 4, 0, rfl, rfl, rfl, rfl, by decide, by decide, by decide, by decide⟩
  · subst h; exact ⟨'7', 'B', 7, 11, rfl, rfl, rfl, rfl, by decide, by decide, by decide, by decide⟩
  · subst h; exact ⟨'7', 'D', 7, 13, rfl, rfl, rfl, rfl, by decide, by decide, by decide, by decide⟩

theorem encode_loop (lit : List Char → Nat) : ∀ (t s : List Char), '\x00' ∉ t →
    ∃ e, encodeTo lit (fun s t => (true, s ++ t)) true s t = some (true, s ++ e) ∧ Percent e t ∧
      (∀ c ∈ e, c ≠ '%' → c ∉ http2Convert ∧ (c ∈ t ∨ c ∉ separators))
  | [], s, _ => ⟨[], by simp [encodeTo], .nil, by simp⟩
  | c :: t, s, h => by
    have hc : c ≠ '\x00' := fun e => h (by rw [e]; simp)
    have ht : '\x00' ∉ t := fun e => h (List.mem_cons_of_mem _ e)
    rw [encodeTo, if_neg hc]
    by_cases hs : c ∈ http2Convert
    · obtain ⟨a, b, x, y, h1, h2, h3, h4, h5, h6, h7, h8⟩ := print_special lit c hs
      have : searchChar http2Convert c = true := by simp [searchChar, hs]
      rw [if_pos this, h1]
      obtain ⟨e, q1, q2, q3⟩ := encode_loop lit t (s ++ ['%', a, b]) ht
      refine ⟨'%' :: a :: b :: e, ?_, ?_, ?_⟩
      · simpa using q1
      · rw [← h4]; exact .code h2 h3 q2
      · intro d hd hp
        simp only [List.mem_cons] at hd
        rcases hd with hd | hd | hd | hd
        · exact absurd hd hp
        · subst hd; exact ⟨h7, Or.inr h5⟩
        · subst hd; exact ⟨h8, Or.inr h6⟩
        · obtain ⟨r1, r2⟩ := q3 d hd hp
          exact ⟨r1, r2.imp (List.mem_cons_of_mem _) id⟩
    · have : searchChar http2Convert c = false := by simp [searchChar, hs, hc]
      rw [if_neg (by rw [this]; simp)]
      obtain ⟨e, q1, q2, q3⟩ := encode_loop lit t (s ++ [c]) ht
      refine ⟨c :: e, ?_, .plain ?_ q2, ?_⟩
      · simpa using q1
      · intro e; apply hs; rw [e]; decide
      · intro d hd hp
        rcases List.mem_cons.mp hd with hd | hd
        · subst hd; exact ⟨hs, Or.inl (by simp)⟩
        · obtain ⟨r1, r2⟩ := q3 d hd hp
          exact ⟨r1, r2.imp (List.mem_cons_of_mem _) id⟩

/-! ## Path -/

theorem cString_self (s : List Char) (h : '\x00' ∉ s) : cString s = s := by
  unfold cString
  induction s with
  | nil => rfl
  | cons c s ih =>
    have hc : c ≠ '\x00' := fun e => h (by rw [e]; simp)
    rw [List.takeWhile_cons, if_pos (by simp [hc]), ih (fun e => h (List.mem_cons_of_mem _ e))]

def PathText (t : List Char) : Prop := t ≠ [] ∧ '/' ∉ t ∧ '\\' ∉ t ∧ '\x00' ∉ t

theorem PathText.free {t : List Char} (h : PathText t) : ∀ x ∈ t, x ∉ ['\\', '/'] ∧ x ≠ '\x00' := by
  intro x hx
  obtain ⟨_, h1, h2, h3⟩ := h
  refine ⟨?_, fun e => h3 (by rw [← e]; exact hx)⟩
  simp only [List.mem_cons, List.not_mem_nil, or_false, not_or]
  exact ⟨fun e => h2 (by rw [← e]; exact hx), fun e => h1 (by rw [← e]; exact hx)⟩

theorem path_spec : ∀ (l : List (List Char)) (fuel : Nat) (path : List Char), l ≠ [] → (∀ t ∈ l, PathText t) → l.length < fuel →
    (joined '/' l).length < 2 ^ 32 → pathLoop fuel (joined '/' l) path = path ++ joined '.' l
  | [], _, _, h, _, _, _ => absurd rfl h
  | [a], fuel, path, _, ht, hf, hl => by
    have ha := ht a (by simp)
    simp only [List.length_cons, List.length_nil] at hf
    match fuel, hf with
    | fuel + 2, _ =>
      rw [joined, pathLoop, word_end _ _ ha.free (by simpa [joined] using hl)]
      have : (a.length != 0) = true := by
        cases a with
        | nil => exact absurd rfl ha.1
        | cons _ _ => rfl
      simp only [this, if_true, not_true_eq_false, false_and, if_false, List.append_nil, joined, ne_eq]
      rw [pathLoop]
      simp [getToken, getTokenLoop, cString_self a ha.2.2.2]
  | a :: b :: l, fuel, path, _, ht, hf, hl => by
    have ha := ht a (by simp)
    match fuel, hf with
    | fuel + 1, hf =>
      have hlen : a.length < 2 ^ 32 := by simp only [joined, List.length_append] at hl; omega
      rw [joined, pathLoop, word_token _ _ _ _ (by simp) ha.free ha.1 hlen]
      have : a.length > 0 := by
        cases a with
        | nil => exact absurd rfl ha.1
        | cons _ _ => simp
      simp only [if_true]
      rw [if_pos ⟨by decide, this⟩, cString_self a ha.2.2.2,
        path_spec (b :: l) fuel _ (by simp) (fun t h => ht t (List.mem_cons_of_mem _ h)) (by simpa using hf)
          (by simp only [joined, List.length_append, List.length_cons] at hl ⊢; omega)]
      simp [joined]

theorem joined_length (sep : Char) : ∀ (l : List (List Char)), (∀ t ∈ l, t ≠ []) → l.length ≤ (joined sep l).length
  | [], _ => by simp [joined]
  | [a], h => by
    have := h a (by simp)
    cases a with
    | nil => exact absurd rfl this
    | cons _ _ => simp [joined]
  | a :: b :: l, h => by
    have := joined_length sep (b :: l) (fun t ht => h t (List.mem_cons_of_mem _ ht))
    simp only [joined, List.length_append, List.length_cons] at this ⊢
    omega

theorem joined_percent (sep : Char) (hs : sep ≠ '%') : ∀ (l : List Part), Percent (joined sep (l.map fun p => p.sent)) (joined sep (l.map fun p => p.text))
  | [] => .nil
  | [a] => by simpa [joined] using a.coded
  | a :: b :: l => by
    have := joined_percent sep hs (b :: l)
    simp only [List.map_cons, joined] at this ⊢
    exact Spec.Percent.append a.coded (.plain hs this)

theorem mem_joined (sep : Char) : ∀ (l : List (List Char)) (x : Char), x ∈ joined sep l → x = sep ∨ ∃ t ∈ l, x ∈ t
  | [], x, h => by simp [joined] at h
  | [a], x, h => Or.inr ⟨a, by simp, by simpa [joined] using h⟩
  | a :: b :: l, x, h => by
    simp only [joined, List.mem_append, List.mem_cons] at h
    rcases h with h | h | h
    · exact Or.inr ⟨a, by simp, h⟩
    · exact Or.inl h
    · rcases mem_joined sep (b :: l) x h with h | ⟨t, ht, hx⟩
      · exact Or.inl h
      · exact Or.inr ⟨t, List.mem_cons_of_mem _ ht, hx⟩

/-- The first part of the line. -/
theorem buildUrl_spec (path : List Part) (hne : path ≠ []) (ht : ∀ p ∈ path, PathText p.text) (sep : Char) (hsep : sep = ' ' ∨ sep = '?')
    (rest : List Char) (hl : (sentPath path).length < 2 ^ 32) :
    buildUrl (sentPath path ++ sep :: rest) = some (joined '.' (path.map fun p => p.text), sep, rest) := by
  unfold buildUrl
  rw [token_some, word_token _ (sentPath path) rest sep (by rcases hsep with h | h <;> subst h <;> decide) ?_ (by simp [sentPath]) hl]
  · dsimp only
    have hp : Percent (sentPath path) ('/' :: joined '/' (path.map fun p => p.text)) := .plain (by decide) (joined_percent '/' (by decide) path)
    rw [decode_percent hp, Option.map_some]
    have hne' : (path.map fun p => p.text) ≠ [] := by
      cases path with
      | nil => exact absurd rfl hne
      | cons _ _ => simp
    have htx : ∀ t ∈ path.map (fun p => p.text), PathText t := by
      intro t h
      obtain ⟨p, hp, rfl⟩ := List.mem_map.mp h
      exact ht p hp
    have hlen := joined_length '/' (path.map fun p => p.text) (fun t h => (htx t h).1)
    have hlp := Spec.Percent.length hp
    simp only [List.length_cons] at hlp
    have hpl : pathLoop (('/' :: joined '/' (path.map fun p => p.text)).length + 1) ('/' :: joined '/' (path.map fun p => p.text)) [] =
        pathLoop (('/' :: joined '/' (path.map fun p => p.text)).length + 1) (joined '/' (path.map fun p => p.text)) [] := by
      rw [pathLoop, skip_term _ _ _ (by simp), pathLoop]
    rw [hpl, path_spec _ _ _ hne' htx (by simp only [List.length_cons]; omega) (by omega), List.nil_append]
  · intro x hx
    simp only [sentPath, List.mem_cons] at hx
    rcases hx with hx | hx
    · subst hx; decide
    · rcases mem_joined _ _ _ hx with h | ⟨t, h, hxt⟩
      · subst h; decide
      · obtain ⟨p, hp, rfl⟩ := List.mem_map.mp h
        have := p.clean x hxt
        simp only [separators, List.mem_cons, List.not_mem_nil, or_false, not_or] at this ⊢
        exact ⟨⟨this.1, this.2.2.1, this.2.2.2.1, this.2.2.2.2.2.1⟩, this.2.2.2.2.1⟩

/-! ## Commands -/

def Command (c : Part × Part) : Prop := c.1.text ≠ [] ∧ '\x00' ∉ c.1.text ∧ '\x00' ∉ c.2.text

theorem Part.sent_ne {p : Part} (h : p.text ≠ []) : p.sent ≠ [] := by
  intro e
  have := Spec.Percent.length p.coded
  rw [e] at this
  exact h (List.eq_nil_of_length_eq_zero (by simpa using this))

theorem storeCommand_spec (ends : List Char) (c : Part × Part) (h : Command c) (he : ∀ x ∈ c.2.sent, x ∉ ends) (hl : (sentCommand c).length < 2 ^ 32) :
    storeCommand ends (sentCommand c) = some (true, if (sentCommand c).length > 3 then some (c.1.text, c.2.text) else none) := by
  unfold storeCommand
  split
  · rename_i h3
    simp only [sentCommand, List.length_append, List.length_cons] at hl
    have cl : ∀ (p : Part) x, x ∈ p.sent → x ≠ '\x00' ∧ x ≠ '=' := by
      intro p x hx
      have := p.clean x hx
      simp only [separators, List.mem_cons, List.not_mem_nil, or_false, not_or] at this
      exact ⟨this.2.2.2.2.1, this.2.2.2.2.2.2.2.2.2⟩
    rw [sentCommand, word_token ['='] c.1.sent c.2.sent '=' (by simp) (fun x hx => ⟨by simpa using (cl _ x hx).2, (cl _ x hx).1⟩)
      (Part.sent_ne h.1) (by omega)]
    simp only [if_true]
    rw [word_end _ c.2.sent (fun x hx => ⟨he x hx, (cl _ x hx).1⟩) (by omega)]
    simp only [decode_percent c.1.coded, decode_percent c.2.coded, cString_self _ h.2.1, cString_self _ h.2.2]
    simp [h.1]
  · rfl

theorem command_free (c : Part × Part) (x : Char) (hx : x ∈ sentCommand c) :
    x ∉ [' ', '\t', '\r', '\n', '?', '/', '\\', '&'] ∧ x ≠ '\x00' := by
  have cl : ∀ (p : Part) x, x ∈ p.sent → x ∉ [' ', '\t', '\r', '\n', '?', '/', '\\', '&'] ∧ x ≠ '\x00' := by
    intro p x hx
    have := p.clean x hx
    simp only [separators, List.mem_cons, List.not_mem_nil, or_false, not_or] at this ⊢
    exact ⟨⟨this.1, this.2.1, this.2.2.1, this.2.2.2.1, this.2.2.2.2.2.1, this.2.2.2.2.2.2.1, this.2.2.2.2.2.2.2.1, this.2.2.2.2.2.2.2.2.1⟩,
      this.2.2.2.2.1⟩
  simp only [sentCommand, List.mem_append, List.mem_cons] at hx
  rcases hx with h | h | h
  · exact cl _ x h
  · subst h; decide
  · exact cl _ x h

theorem command_ne (c : Part × Part) : sentCommand c ≠ [] := by simp [sentCommand]

theorem command_amp (c : Part × Part) : ∀ x ∈ sentCommand c, x ∉ ['&'] ∧ x ≠ '\x00' := by
  intro x hx
  obtain ⟨h1, h2⟩ := command_free c x hx
  simp only [List.mem_cons, List.not_mem_nil, or_false, not_or] at h1
  exact ⟨by simpa using h1.2.2.2.2.2.2.2, h2⟩

theorem store_spec : ∀ (q : List (Part × Part)) (fuel : Nat) (w : List (List Char × List Char)), q ≠ [] → (∀ c ∈ q, Command c) → q.length < fuel →
    (sentQuery q).length < 2 ^ 32 → storeLoop fuel (sentQuery q) w =
      some (true, w ++ (q.filter fun c => (sentCommand c).length > 3).map fun c => (c.1.text, c.2.text))
  | [], _, _, h, _, _, _ => absurd rfl h
  | [c], fuel, w, _, hc, hf, hl => by
    simp only [List.length_cons, List.length_nil] at hf
    have hl : (sentCommand c).length < 2 ^ 32 := by simpa [sentQuery, joined] using hl
    match fuel, hf with
    | fuel + 2, _ =>
      have : ((sentCommand c).length != 0) = true := by
        cases h : sentCommand c with
        | nil => exact absurd h (command_ne c)
        | cons _ _ => rfl
      simp only [sentQuery, List.map_cons, List.map_nil, joined]
      rw [storeLoop, word_end _ _ (command_amp c) hl]
      simp only [this, if_true]
      rw [storeCommand_spec [] c (hc c (by simp)) (by simp) hl]
      dsimp only
      rw [storeLoop]
      by_cases h3 : (sentCommand c).length > 3 <;> simp [getToken, getTokenLoop, h3]
  | c :: d :: q, fuel, w, _, hc, hf, hl => by
    match fuel, hf with
    | fuel + 1, hf =>
      have hl1 : (sentCommand c).length < 2 ^ 32 := by simp only [sentQuery, List.map_cons, joined, List.length_append] at hl; omega
      simp only [sentQuery, List.map_cons, joined] at hl ⊢
      rw [storeLoop, word_token _ _ _ _ (by simp) (command_amp c) (command_ne c) hl1]
      simp only [if_true]
      rw [storeCommand_spec [] c (hc c (by simp)) (by simp) hl1]
      dsimp only
      have := store_spec (d :: q) fuel (w ++ (if (sentCommand c).length > 3 then some (c.1.text, c.2.text) else none).toList) (by simp)
        (fun x hx => hc x (List.mem_cons_of_mem _ hx)) (by simpa using hf)
        (by simp only [sentQuery, List.map_cons, List.length_append, List.length_cons] at hl ⊢; omega)
      simp only [sentQuery, List.map_cons] at this
      rw [this]
      by_cases h3 : (sentCommand c).length > 3 <;> simp [h3, List.filter_cons]

theorem query_free (q : List (Part × Part)) (x : Char) (hx : x ∈ sentQuery q) : x ∉ [' ', '\t', '\r', '\n', '?', '/', '\\'] ∧ x ≠ '\x00' := by
  rcases mem_joined _ _ _ hx with h | ⟨t, h, hxt⟩
  · subst h; decide
  · obtain ⟨c, hc, rfl⟩ := List.mem_map.mp h
    obtain ⟨h1, h2⟩ := command_free c x hxt
    simp only [List.mem_cons, List.not_mem_nil, or_false, not_or] at h1 ⊢
    exact ⟨⟨h1.1, h1.2.1, h1.2.2.1, h1.2.2.2.1, h1.2.2.2.2.1, h1.2.2.2.2.2.1, h1.2.2.2.2.2.2.1⟩, h2⟩

theorem query_ne (q : List (Part × Part)) (h : q ≠ []) : sentQuery q ≠ [] := by
  cases q with
  | nil => exact absurd rfl h
  | cons c q =>
    intro e
    have := joined_length '&' ((c :: q).map sentCommand) (by
      intro t ht
      obtain ⟨d, _, rfl⟩ := List.mem_map.mp ht
      exact command_ne d)
    have e' : joined '&' ((c :: q).map sentCommand) = [] := e
    rw [e'] at this
    simp at this

theorem storeCommands_spec (q : List (Part × Part)) (hne : q ≠ []) (hc : ∀ c ∈ q, Command c) (hl : (sentQuery q).length < 2 ^ 32)
    (rest : List Char) :
    storeCommands (sentQuery q ++ ' ' :: rest) =
      some (true, (q.filter fun c => (sentCommand c).length > 3).map fun c => (c.1.text, c.2.text), rest) := by
  unfold storeCommands
  rw [word_token _ _ _ _ (by simp) ?_ (query_ne q hne) hl]
  · dsimp only
    have hlen := joined_length '&' (q.map sentCommand) (by
      intro t ht
      obtain ⟨d, _, rfl⟩ := List.mem_map.mp ht
      exact command_ne d)
    rw [List.length_map] at hlen
    rw [store_spec q _ [] hne hc (by show q.length < (joined '&' (q.map sentCommand)).length + 1; omega) hl]
    simp
  · intro x hx
    obtain ⟨h1, h2⟩ := query_free q x hx
    simp only [List.mem_cons, List.not_mem_nil, or_false, not_or] at h1 ⊢
    exact ⟨⟨h1.1, h1.2.1⟩, h2⟩

theorem form_spec : ∀ (q : List (Part × Part)) (fuel : Nat) (w : List (List Char × List Char)), q ≠ [] → (∀ c ∈ q, Command c) →
    (∀ c ∈ q, ';' ∉ c.2.sent) → q.length < fuel → (sentQuery q).length < 2 ^ 32 → formLoop fuel (sentQuery q) w =
      some (w ++ (q.filter fun c => (sentCommand c).length > 3).map fun c => (c.1.text, c.2.text))
  | [], _, _, h, _, _, _, _ => absurd rfl h
  | [c], fuel, w, _, hc, hsc, hf, hl => by
    simp only [List.length_cons, List.length_nil] at hf
    have hl : (sentCommand c).length < 2 ^ 32 := by simpa [sentQuery, joined] using hl
    match fuel, hf with
    | fuel + 2, _ =>
      have : ((sentCommand c).length != 0) = true := by
        cases h : sentCommand c with
        | nil => exact absurd h (command_ne c)
        | cons _ _ => rfl
      simp only [sentQuery, List.map_cons, List.map_nil, joined]
      rw [formLoop, word_end _ _ (command_amp c) hl]
      simp only [this, if_true]
      rw [storeCommand_spec [';'] c (hc c (by simp)) (fun x hx hm => hsc c (by simp) (by rw [List.mem_singleton] at hm; rw [← hm]; exact hx)) hl]
      dsimp only
      rw [formLoop]
      by_cases h3 : (sentCommand c).length > 3 <;> simp [getToken, getTokenLoop, h3]
  | c :: d :: q, fuel, w, _, hc, hsc, hf, hl => by
    match fuel, hf with
    | fuel + 1, hf =>
      have hl1 : (sentCommand c).length < 2 ^ 32 := by simp only [sentQuery, List.map_cons, joined, List.length_append] at hl; omega
      simp only [sentQuery, List.map_cons, joined] at hl ⊢
      rw [formLoop, word_token _ _ _ _ (by simp) (command_amp c) (command_ne c) hl1]
      simp only [if_true]
      rw [storeCommand_spec [';'] c (hc c (by simp)) (fun x hx hm => hsc c (by simp) (by rw [List.mem_singleton] at hm; rw [← hm]; exact hx)) hl1]
      dsimp only
      have := form_spec (d :: q) fuel (w ++ (if (sentCommand c).length > 3 then some (c.1.text, c.2.text) else none).toList) (by simp)
        (fun x hx => hc x (List.mem_cons_of_mem _ hx)) (fun x hx => hsc x (List.mem_cons_of_mem _ hx)) (by simpa using hf)
        (by simp only [sentQuery, List.map_cons, List.length_append, List.length_cons] at hl ⊢; omega)
      simp only [sentQuery, List.map_cons] at this
      rw [this]
      by_cases h3 : (sentCommand c).length > 3 <;> simp [h3, List.filter_cons]

end Verif.HttpUrl
