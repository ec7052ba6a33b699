import Verif.Proof.Lexer
/-! ## Rounds of the analyser -/
set_option linter.unusedSimpArgs false
namespace Verif.Lexer
open Verif.Token (searchChar)
open Verif.Spec.Lexer

variable {L : Language}

/-- The kind of a bare word. -/
theorem starts_digit (w : List Char) : startsDigit w = numberLike w := by
  have d : ∀ c : Char, isDigit c = c.isDigit := by
    intro c
    unfold isDigit Char.isDigit
    simp only [UInt32.le_iff_toNat_le, ge_iff_le]
    rfl
  unfold startsDigit numberLike
  split
  · rfl
  · next c cs =>
    by_cases h1 : c = '+'
    · subst h1; cases cs <;> simp [d]
    · by_cases h2 : c = '-'
      · subst h2; cases cs <;> simp [d]
      · simp [h1, h2, d]

def bareKind (conv : List Char → Bool) (w : List Char) : Kind := if numberLike w && conv w then .number else .string

/-- The tokens of a text with the lines that the analyser gives them. -/
def actual (conv : List Char → Bool) : Nat → List Piece → List Token
  | _, [] => []
  | l, .blank c :: ps => actual conv (l + nl c) ps
  | l, .lineComment _ :: ps => actual conv (l + 1) ps
  | l, .blockComment b :: ps => actual conv (l + nls b) ps
  | l, .sign c :: ps => ⟨.terminal, [c], l⟩ :: actual conv l ps
  | l, .bare w :: .blockComment b :: ps => ⟨bareKind conv w, w, l + nls b⟩ :: actual conv (l + nls b) ps
  | l, .bare w :: ps => ⟨bareKind conv w, w, l⟩ :: actual conv l ps
  | l, .quoted s :: ps => ⟨.string, s.flatMap QChar.value, l + nls (s.flatMap QChar.value)⟩ ::
      actual conv (l + nls (s.flatMap QChar.value)) ps

theorem text_cons (p : Piece) (ps : List Piece) : text (p :: ps) = p.text ++ text ps := by simp [text]

theorem ok_cons {p : Piece} {ps : List Piece} (h : ok L (p :: ps) = true) :
    p.ok L = true ∧ p.before L ps.head? = true ∧ ok L ps = true := by
  simp only [ok, Bool.and_eq_true] at h; exact ⟨h.1.1, h.1.2, h.2⟩

/-- A piece that gives a token. -/
def Piece.isWord : Piece → Bool
  | .sign _ => true
  | .bare _ => true
  | .quoted _ => true
  | _ => false

theorem start_pieces (hL : L.ok = true) (conv : List Char → Bool) : ∀ (ps : List Piece), ok L ps = true → ∀ n line,
    (text ps).length < n → ∃ ps1 line1 m, ok L ps1 = true ∧ actual conv line ps = actual conv line1 ps1 ∧
      (text ps1).length ≤ (text ps).length ∧
      start L.grammar n (text ps) line = start L.grammar (m + 1) (text ps1) line1 ∧
      (ps1 = [] ∨ ∃ p ps2, ps1 = p :: ps2 ∧ Piece.isWord p = true) := by
  intro ps
  induction ps with
  | nil =>
    intro _ n line hn
    obtain ⟨n, rfl⟩ : ∃ m, n = m + 1 := ⟨n - 1, by omega⟩
    exact ⟨[], line, n, rfl, rfl, by simp, rfl, .inl rfl⟩
  | cons p ps ih =>
    intro hok n line hn
    obtain ⟨h1, h2, h3⟩ := ok_cons hok
    obtain ⟨n, rfl⟩ : ∃ m, n = m + 1 := ⟨n - 1, by omega⟩
    have word : Piece.isWord p = true → ∃ ps1 line1 m, ok L ps1 = true ∧ actual conv line (p :: ps) = actual conv line1 ps1 ∧
      (text ps1).length ≤ (text (p :: ps)).length ∧
      start L.grammar (n + 1) (text (p :: ps)) line = start L.grammar (m + 1) (text ps1) line1 ∧
      (ps1 = [] ∨ ∃ p' ps2, ps1 = p' :: ps2 ∧ Piece.isWord p' = true) := fun hw =>
      ⟨p :: ps, line, n, hok, rfl, Nat.le_refl _, rfl, .inr ⟨p, ps, rfl, hw⟩⟩
    rw [text_cons, List.length_append] at hn
    cases p with
    | sign c => exact word rfl
    | bare w => exact word rfl
    | quoted s => exact word rfl
    | blank c =>
      simp only [Piece.ok, List.contains_iff_mem, List.contains_eq_mem, decide_eq_true_eq] at h1
      obtain ⟨ps1, line1, m, a, b, c', d, e⟩ := ih h3 (n + 1) (line + nl c) (by simp [Piece.text] at hn; omega)
      refine ⟨ps1, line1, m, a, by rw [← b, actual], ?_, ?_, e⟩
      · rw [text_cons, List.length_append]; omega
      · rw [text_cons, ← d]
        exact start_blank n line c _ h1
    | lineComment b =>
      simp only [Piece.ok, Bool.and_eq_true, decide_eq_true_eq, Bool.not_eq_true', List.contains_eq_mem,
        decide_eq_false_iff_not] at h1
      obtain ⟨ps1, line1, m, a, b', c', d, e⟩ := ih h3 n (line + 1) (by simp [Piece.text] at hn; omega)
      refine ⟨ps1, line1, m, a, by rw [← b', actual], ?_, ?_, e⟩
      · rw [text_cons, List.length_append]; omega
      · rw [text_cons, ← d]
        have := start_line hL h1.1.1 n line b (text ps) h1.1.2 h1.2
        simpa [Piece.text] using this
    | blockComment b =>
      simp only [Piece.ok, Bool.and_eq_true, Bool.not_eq_true'] at h1
      obtain ⟨ps1, line1, m, a, b', c', d, e⟩ := ih h3 n (line + nls b) (by simp [Piece.text] at hn; omega)
      refine ⟨ps1, line1, m, a, by rw [← b', actual], ?_, ?_, e⟩
      · rw [text_cons, List.length_append]; omega
      · rw [text_cons, ← d]
        have := start_block hL h1.1 n line b (text ps) h1.2
        simpa [Piece.text] using this

/-! ### Tokens added at the end of a round -/

theorem cstr_of {s : List Char} (h : '\x00' ∉ s) : cstr s = s := by
  induction s with
  | nil => rfl
  | cons c s ih =>
    have h1 : c ≠ '\x00' := fun e => h (by simp [e])
    rw [cstr, List.takeWhile_cons_of_pos (by simpa using h1)]
    rw [show s.takeWhile (· ≠ '\x00') = s from ih (fun e => h (by simp [e]))]

theorem cstr_ne {c : Char} {s : List Char} (h : c ≠ '\x00') : cstr (c :: s) ≠ [] := by
  simp [cstr, List.takeWhile_cons, h]

theorem search_nil {s : List Char} (h : s ≠ []) : searchString L.grammar.keywords s = false := by
  show searchString [] s = false
  cases s with
  | nil => exact absurd rfl h
  | cons => rfl

theorem bare_token (conv : List Char → Bool) (w : List Char) (line : Nat) (hw : ∀ c ∈ w, Plain L c) (h0 : w ≠ []) :
    addToken conv w false line = [⟨bareKind conv w, w, line⟩] := by
  have hc : cstr w = w := cstr_of fun h => (hw _ h).2.2.2.2 rfl
  have hh : w.head? ≠ some '"' := fun h => (hw _ (List.mem_of_mem_head? h)).2.2.1 rfl
  have hl : w.getLast? ≠ some '"' := fun h => (hw _ (List.mem_of_getLast? h)).2.2.1 rfl
  unfold addToken bareKind
  simp only [hc, starts_digit, if_neg h0, Bool.not_false, Bool.true_and, if_neg hh, if_neg hl]
  split <;> rfl

theorem value_no_zero (q : QChar) (h : q.ok = true) : '\x00' ∉ q.value := by
  unfold QChar.value
  split <;> simp_all [QChar.ok] <;> (try decide)
  · exact fun e => h.2 e.symm
  · exact fun e => h e.symm

theorem quoted_token (conv : List Char → Bool) (s : List QChar) (line : Nat) (hs : s.all QChar.ok = true) :
    addToken conv ('"' :: (s.flatMap QChar.value ++ ['"'])) true line = [⟨.string, s.flatMap QChar.value, line⟩] := by
  have h0 : '\x00' ∉ s.flatMap QChar.value := by
    intro h
    obtain ⟨q, hq, hv⟩ := List.mem_flatMap.mp h
    exact value_no_zero q (List.all_eq_true.mp hs q hq) hv
  have hc : cstr ('"' :: (s.flatMap QChar.value ++ ['"'])) = '"' :: (s.flatMap QChar.value ++ ['"']) :=
    cstr_of (by simp only [List.mem_cons, List.mem_append, not_or]; exact ⟨by decide, h0, by decide, by simp⟩)
  have hl : ('"' :: (s.flatMap QChar.value ++ ['"'])).getLast? = some '"' := by
    rw [← List.cons_append, List.getLast?_append]; rfl
  have hd : ('"' :: (s.flatMap QChar.value ++ ['"'])).dropLast = '"' :: s.flatMap QChar.value := by
    rw [← List.cons_append, List.dropLast_concat]
  unfold addToken
  simp only [hc, hl, hd, if_true]
  simp

/-- The end of a round that ends without a sign. -/
theorem conclude_plain (conv : List Char → Bool) (s : Scan) (h : s.term = '\x00') (c : Char) (w : List Char)
    (hs : s.str = c :: w) (hc : c ≠ '\x00') : conclude L.grammar conv s = (addToken conv s.str s.isStr s.line, s.rest) := by
  have h1 : searchString L.grammar.keywords (cstr (s.str ++ [s.term])) = false :=
    search_nil (by rw [hs]; exact cstr_ne hc)
  have h2 : searchString L.grammar.keywords (cstr s.str) = false := search_nil (by rw [hs]; exact cstr_ne hc)
  simp only [conclude, h1, h2, and_false, if_false, Bool.false_eq_true, false_and]
  rw [if_pos h]

/-- The end of a round that ends with a sign. -/
theorem conclude_sign (conv : List Char → Bool) (s : Scan) (h : s.term ≠ '\x00')
    (hs : s.str = [] ∨ ∃ c w, s.str = c :: w ∧ c ≠ '\x00') :
    conclude L.grammar conv s = (addToken conv s.str s.isStr s.line ++ [⟨.terminal, [s.term], s.line⟩], s.rest) := by
  have h3 : ∀ x, searchString L.grammar.keywords (cstr (s.term :: x)) = false := fun x => search_nil (cstr_ne h)
  rcases hs with hs | ⟨c, w, hs, hc⟩
  · have h2 : searchString L.grammar.keywords (cstr s.str) = true := by rw [hs]; rfl
    simp only [conclude, hs, ne_eq, not_true_eq_false, false_and, if_false, (by rfl : cstr [] = []), and_false, h]
    have e : cstr ([] : List Char) = [] := rfl
    split <;> simp [h3, e]
  · have h1 : searchString L.grammar.keywords (cstr (s.str ++ [s.term])) = false :=
      search_nil (by rw [hs]; exact cstr_ne hc)
    have h2 : searchString L.grammar.keywords (cstr s.str) = false := search_nil (by rw [hs]; exact cstr_ne hc)
    simp only [conclude, h1, h2, h, and_false, if_false, Bool.false_eq_true, false_and]
    split <;> simp [h3]

/-! ### A round -/

/-- The token that a round finds first. -/
theorem round_eof (conv : List Char → Bool) (q : List Token) (ps : List Piece) (line m line1 : Nat)
    (h : start L.grammar ((text ps).length + 1) (text ps) line = start L.grammar (m + 1) [] line1) :
    round L.grammar conv ⟨q, text ps, line⟩ = ⟨q ++ [⟨.eof, [], line1⟩], [], line1⟩ := by
  rw [start_end] at h
  simp [round, h]

theorem round_word (conv : List Char → Bool) (q : List Token) (cs : List Char) (line line1 : Nat) (c : Char)
    (buf rest : List Char) (_ : c ≠ '\x00')
    (h : start L.grammar (cs.length + 1) cs line = ⟨true, c :: buf, '\x00', line1, rest⟩) (e : Scan)
    (he : loop L.grammar conv (cs.length + 1) c ⟨buf, rest, line1, [], false, false, '\x00', '\x00', []⟩ = e)
    (ts : List Token) (rest' : List Char) (hcl : conclude L.grammar conv e = (ts, rest')) :
    round L.grammar conv ⟨q, cs, line⟩ = ⟨q ++ e.out ++ ts, rest', if e.sep = '\n' then e.line + 1 else e.line⟩ := by
  simp only [round, h, if_true, List.headD_cons, List.tail_cons, he, hcl]

theorem nl_step (line : Nat) (c : Char) : (if c = '\n' then line + 1 else line) = line + nl c := by
  unfold nl; split <;> rfl

theorem plain_of {w : List Char} (h : (Piece.bare w).ok L = true) : w ≠ [] ∧ (∀ c ∈ w, Plain L c) ∧
    (L.comments = true → hasComment w = false) := by
  simp only [Piece.ok, Bool.and_eq_true, decide_eq_true_eq, List.all_eq_true, Bool.not_eq_true', Bool.and_eq_false_iff] at h
  refine ⟨h.1.1, fun c hc => ?_, fun hc => ?_⟩
  · have := h.1.2 c hc
    simpa [Plain, and_assoc] using this
  · rcases h.2 with e | e
    · rw [hc] at e; cases e
    · exact e

/-- The start of a bare word. -/
theorem start_bare (hL : L.ok = true) (m line : Nat) (x : Char) (w tail : List Char) (hx : Plain L x)
    (hcm : L.comments = true → hasComment (x :: w) = false)
    (hl : L.comments = true → (x :: w).getLast? = some '/' → ∃ z zs, tail = z :: zs ∧ z ≠ '/' ∧ z ≠ '*') :
    ∃ buf rest, start L.grammar (m + 1) (x :: (w ++ tail)) line = ⟨true, x :: buf, '\x00', line, rest⟩ ∧
      ((buf = [] ∧ rest = w ++ tail ∧ (L.comments = true → x ≠ '/')) ∨
       (L.comments = true ∧ x = '/' ∧ ∃ z, buf = [z] ∧ w ++ tail = z :: rest)) := by
  by_cases hc : L.comments = true ∧ x = '/'
  · obtain ⟨hc, rfl⟩ := hc
    have : ∃ z zs, w ++ tail = z :: zs ∧ z ≠ '/' ∧ z ≠ '*' := by
      cases w with
      | nil => exact hl hc rfl
      | cons z zs =>
        refine ⟨z, zs ++ tail, rfl, ?_⟩
        have := hcm hc
        rw [hasComment, Bool.or_eq_false_iff] at this
        simpa using this.1
    obtain ⟨z, zs, e, z1, z2⟩ := this
    refine ⟨[z], zs, ?_, .inr ⟨hc, rfl, z, rfl, e⟩⟩
    rw [e, start_slash hL hc m line z zs z1 z2]
  · exact ⟨[], w ++ tail, start_char m line x _ hx.1 hx.2.2.2.2 (fun h e => hc ⟨h, e⟩),
      .inl ⟨rfl, rfl, fun h e => hc ⟨h, e⟩⟩⟩

/-- One round takes one or two tokens of the text, or finds the end. -/
theorem round_pieces (hL : L.ok = true) (hnl : '\n' ∈ L.blanks) (conv : List Char → Bool) (ps : List Piece)
    (hok : ok L ps = true) (q : List Token) (line : Nat) :
    ∃ ts ps' line', round L.grammar conv ⟨q, text ps, line⟩ = ⟨q ++ ts, text ps', line'⟩ ∧ ok L ps' = true ∧
      ((actual conv line ps = [] ∧ ps' = [] ∧ ts = [⟨.eof, [], line'⟩]) ∨
       (ts ≠ [] ∧ actual conv line ps = ts ++ actual conv line' ps')) := by
  obtain ⟨ps1, line1, m, h1, h2, h3, h4, h5⟩ := start_pieces hL conv ps hok ((text ps).length + 1) line (by omega)
  rcases h5 with rfl | ⟨p, ps2, rfl, hw⟩
  · exact ⟨[⟨.eof, [], line1⟩], [], line1, round_eof conv q ps line m line1 h4, rfl, .inl ⟨h2, rfl, rfl⟩⟩
  · obtain ⟨o1, o2, o3⟩ := ok_cons h1
    rw [h2]
    cases p with
    | blank c => cases hw
    | lineComment b => cases hw
    | blockComment b => cases hw
    | sign c =>
      have hc : c ∈ L.signs := by simpa [Piece.ok] using o1
      have h0 : c ≠ '\x00' := fun e => (lang_res hL '\x00' (by decide)).2 (e ▸ hc)
      have hs : c ≠ '/' := fun e => (lang_res hL '/' (by decide)).2 (e ▸ hc)
      rw [text_cons] at h4
      simp only [Piece.text, List.cons_append, List.nil_append] at h4
      rw [start_char m line1 c _ (lang_disj hL c hc) h0 (fun _ => hs)] at h4
      have hloop : loop L.grammar conv ((text ps).length + 1) c
          ⟨[], text ps2, line1, [], false, false, '\x00', '\x00', []⟩ =
          ⟨[], text ps2, line1, [], false, false, '\x00', c, []⟩ := by
        rw [loop, char_sign hL conv c hc _ rfl rfl rfl]
      have := round_word conv q (text ps) line line1 c [] (text ps2) h0 h4 _ hloop _ _
        (conclude_sign conv _ (by exact h0) (.inl rfl))
      refine ⟨[⟨.terminal, [c], line1⟩], ps2, line1, ?_, o3, .inr ⟨by simp, rfl⟩⟩
      rw [this]
      simp [addToken, cstr]
    | quoted s =>
      have hs : s.all QChar.ok = true := o1
      have hq := lang_res hL '"' (by decide)
      rw [text_cons] at h4 h3
      simp only [Piece.text, List.cons_append, List.append_assoc, List.nil_append] at h4
      rw [start_char m line1 '"' _ hq.1 (by decide) (fun _ => by decide)] at h4
      have hlen : (s.flatMap QChar.text).length + 2 ≤ (text ps).length := by
        simp only [Piece.text, List.length_append, List.length_cons, List.length_nil] at h3; omega
      obtain ⟨y, ys, ey⟩ : ∃ y ys, y :: ys = s.flatMap QChar.text ++ '"' :: text ps2 := by
        cases h : s.flatMap QChar.text ++ '"' :: text ps2 with
        | nil => simp at h
        | cons y ys => exact ⟨y, ys, rfl⟩
      have hloop : loop L.grammar conv ((text ps).length + 1) '"'
          ⟨[], s.flatMap QChar.text ++ '"' :: text ps2, line1, [], false, false, '\x00', '\x00', []⟩ =
          ⟨[], text ps2, line1 + nls (s.flatMap QChar.value), '"' :: (s.flatMap QChar.value ++ ['"']), true, false, '"',
            '\x00', []⟩ := by
        have c1 : searchChar L.grammar.seps '"' = false := by
          rw [Bool.eq_false_iff]; intro e; exact ((sep_of '"').mp e).elim hq.1 (by decide)
        have c2 : searchChar L.grammar.terms '"' = false := by
          rw [Bool.eq_false_iff]; intro e; exact ((term_of '"').mp e).elim hq.2 (by decide)
        rw [loop, ← ey]
        simp only [char, c1, c2, Bool.false_and, Bool.false_eq_true, if_false, and_self, if_true, advance,
          (by decide : ¬ ('"' = '\\')), (by decide : nl '"' = 0), Nat.add_zero]
        rw [loop_quoted conv s hs (text ps2) _ y ys _ ey rfl rfl rfl rfl (by omega)]
        simp
      have := round_word conv q (text ps) line line1 '"' [] _ (by decide) h4 _ hloop _ _
        (conclude_plain conv _ rfl '"' _ rfl (by decide))
      refine ⟨[⟨.string, s.flatMap QChar.value, line1 + nls (s.flatMap QChar.value)⟩], ps2,
        line1 + nls (s.flatMap QChar.value), ?_, o3, .inr ⟨by simp, by simp [actual]⟩⟩
      rw [this]
      simp only [quoted_token conv s _ hs, List.append_nil]
      rw [if_neg (by decide)]
    | bare w =>
      obtain ⟨w0, wp, wc⟩ := plain_of o1
      obtain ⟨x, w, rfl⟩ := List.exists_cons_of_ne_nil w0
      have hx := wp x (by simp)
      rw [text_cons] at h4 h3
      simp only [Piece.text, List.cons_append] at h4
      have hlen : w.length + 1 + (text ps2).length ≤ (text ps).length := by
        simp only [Piece.text, List.length_append, List.length_cons] at h3; omega
      -- given how the word ends, the round is known
      have fin : ∀ (sep term : Char) (ps3 : List Piece) (dl : Nat), Ends L (text ps2) sep term (text ps3) dl →
          (L.comments = true → (x :: w).getLast? = some '/' → ∃ z zs, text ps2 = z :: zs ∧ z ≠ '/' ∧ z ≠ '*') →
          round L.grammar conv ⟨q, text ps, line⟩ = ⟨q ++ (⟨bareKind conv (x :: w), x :: w, line1 + dl⟩ ::
            (if term = '\x00' then [] else [⟨.terminal, [term], line1 + dl⟩])), text ps3, line1 + dl + nl sep⟩ := by
        intro sep term ps3 dl he hsl
        obtain ⟨buf, rest, hst, hb⟩ := start_bare hL m line1 x w (text ps2) hx wc hsl
        rw [hst] at h4
        have hloop := loop_bare hL conv hnl he w ((text ps).length + 1) x
          ⟨buf, rest, line1, [], false, false, '\x00', '\x00', []⟩ wp wc hsl rfl rfl rfl rfl hb (by omega)
        by_cases ht : term = '\x00'
        · have := round_word conv q (text ps) line line1 x buf rest hx.2.2.2.2 h4 _ hloop _ _
            (conclude_plain conv _ (by exact ht) x w rfl hx.2.2.2.2)
          rw [this]
          simp only [List.nil_append, bare_token conv (x :: w) _ wp w0, List.append_nil, if_pos ht, nl_step]
        · have := round_word conv q (text ps) line line1 x buf rest hx.2.2.2.2 h4 _ hloop _ _
            (conclude_sign conv _ (by exact ht) (.inr ⟨x, w, rfl, hx.2.2.2.2⟩))
          rw [this]
          simp only [List.nil_append, bare_token conv (x :: w) _ wp w0, List.append_nil, if_neg ht, nl_step,
            List.cons_append]
      have nosl : (Piece.bare (x :: w)).before L ps2.head? = !(L.comments && (x :: w).getLast? = some '/') →
          (L.comments = true → (x :: w).getLast? = some '/' → ∃ z zs, text ps2 = z :: zs ∧ z ≠ '/' ∧ z ≠ '*') := by
        intro e hc hl
        rw [e] at o2
        simp [hc, hl] at o2
      cases ps2 with
      | nil =>
        refine ⟨_, [], line1 + 0 + nl '\x00', fin '\x00' '\x00' [] 0 .eof (nosl rfl), rfl, .inr ⟨by simp, ?_⟩⟩
        simp [actual]
      | cons p2 ps3 =>
        obtain ⟨r1, r2, r3⟩ := ok_cons o3
        cases p2 with
        | bare w' => simp [Piece.before] at o2
        | quoted s => simp [Piece.before] at o2
        | blank c =>
          have hc : c ∈ L.blanks := by simpa [Piece.ok] using r1
          refine ⟨_, ps3, line1 + 0 + nl c, fin c '\x00' ps3 0 (.blank c hc _) ?_, r3, .inr ⟨by simp, ?_⟩⟩
          · intro _ _
            exact ⟨c, text ps3, rfl, fun e => (lang_res hL '/' (by decide)).1 (e ▸ hc),
              fun e => (lang_res hL '*' (by decide)).1 (e ▸ hc)⟩
          · simp [actual]
        | sign c =>
          have hc : c ∈ L.signs := by simpa [Piece.ok] using r1
          have h0 : c ≠ '\x00' := fun e => (lang_res hL '\x00' (by decide)).2 (e ▸ hc)
          refine ⟨_, ps3, line1 + 0 + nl '\x00', fin '\x00' c ps3 0 (.sign c hc _) ?_, r3, .inr ⟨by simp, ?_⟩⟩
          · intro _ _
            exact ⟨c, text ps3, rfl, fun e => (lang_res hL '/' (by decide)).2 (e ▸ hc),
              fun e => (lang_res hL '*' (by decide)).2 (e ▸ hc)⟩
          · have : nl '\x00' = 0 := by decide
            simp [actual, h0, this]
        | lineComment b =>
          simp only [Piece.ok, Bool.and_eq_true, decide_eq_true_eq, Bool.not_eq_true', List.contains_eq_mem,
            decide_eq_false_iff_not] at r1
          refine ⟨_, ps3, line1 + 0 + nl '\n', fin '\n' '\x00' ps3 0 ?_ (nosl rfl), r3, .inr ⟨by simp, ?_⟩⟩
          · have := Ends.line r1.1.1 b r1.1.2 r1.2 (text ps3)
            rw [text_cons]
            simpa [Piece.text] using this
          · have : nl '\n' = 1 := by decide
            simp [actual, this]
        | blockComment b =>
          simp only [Piece.ok, Bool.and_eq_true, Bool.not_eq_true'] at r1
          refine ⟨_, ps3, line1 + nls b + nl '\x00', fin '\x00' '\x00' ps3 (nls b) ?_ (nosl rfl), r3,
            .inr ⟨by simp, ?_⟩⟩
          · have := Ends.block r1.1 b r1.2 (text ps3)
            rw [text_cons]
            simpa [Piece.text] using this
          · have : nl '\x00' = 0 := by decide
            simp [actual, this]

end Verif.Lexer
