import Verif.Spec.Lexer
/-! ## The lexical analyser on texts made of pieces -/
set_option linter.unusedSimpArgs false
namespace Verif.Lexer
open Verif.Token (searchChar)
open Verif.Spec.Lexer

/-- Ends of line. -/
def nls (s : List Char) : Nat := (s.map nl).sum

theorem nls_append (a b : List Char) : nls (a ++ b) = nls a + nls b := by
  simp [nls, List.map_append, List.sum_append]

theorem nls_cons (c : Char) (b : List Char) : nls (c :: b) = nl c + nls b := by simp [nls]

theorem nls_nil : nls [] = 0 := rfl

theorem nls_count (s : List Char) : nls s = s.count '\n' := by
  induction s with
  | nil => rfl
  | cons c s ih =>
    rw [nls_cons, ih, List.count_cons]
    unfold nl
    by_cases h : c = '\n'
    · rw [if_pos h, if_pos (by simp [h])]; omega
    · rw [if_neg h, if_neg (by simpa using h)]; omega

/-! ### Comments -/

theorem readLine_body (b cs : List Char) (h : '\n' ∉ b) : readLine (b ++ '\n' :: cs) = cs := by
  induction b with
  | nil => simp [readLine]
  | cons c b ih =>
    have h1 : c ≠ '\n' := fun e => h (by simp [e])
    have h2 : '\n' ∉ b := fun e => h (by simp [e])
    simp only [List.cons_append, readLine, if_neg h1]
    exact ih h2

theorem slide_body (b cs : List Char) (h : hasEnd b = false) : ∀ x y t line, x :: y :: t = b ++ '*' :: '/' :: cs →
    slide ['*', '/'] [x, y] t (line + nl x + nl y) = (cs, line + nls b) := by
  induction b with
  | nil =>
    intro x y t line e
    simp only [List.nil_append, List.cons.injEq] at e
    obtain ⟨rfl, rfl, rfl⟩ := e
    cases t with
    | nil => simp [slide, nl, nls_nil]
    | cons c cs => simp [slide, nl, nls_nil]
  | cons c b ih =>
    intro x y t line e
    simp only [List.cons_append, List.cons.injEq] at e
    obtain ⟨rfl, e⟩ := e
    have hb : hasEnd b = false := by
      simp only [hasEnd, Bool.or_eq_false_iff] at h; exact h.2
    have hne : ¬ ([x, y] = ['*', '/']) := by
      intro e2
      simp only [List.cons.injEq, and_true] at e2
      obtain ⟨rfl, rfl⟩ := e2
      cases b with
      | nil => simp at e
      | cons d b =>
        simp only [List.cons_append, List.cons.injEq] at e
        simp [hasEnd, ← e.1] at h
    cases t with
    | nil =>
      cases b with
      | nil => simp at e
      | cons d b => simp at e
    | cons z t =>
      simp only [slide, if_neg hne, List.tail_cons, List.cons_append, List.nil_append]
      have := ih hb y z t (line + nl x) e
      rw [this, nls_cons]
      simp only [Prod.mk.injEq, true_and]; omega

theorem readMulti_body (b cs : List Char) (h : hasEnd b = false) (line : Nat) :
    readMulti ['*', '/'] (b ++ '*' :: '/' :: cs) line = (cs, line + nls b) := by
  have hx : ∃ x y t, x :: y :: t = b ++ '*' :: '/' :: cs := by
    cases b with
    | nil => exact ⟨_, _, _, rfl⟩
    | cons x b => cases b with
      | nil => exact ⟨_, _, _, rfl⟩
      | cons y b => exact ⟨_, _, _, rfl⟩
  obtain ⟨x, y, t, e⟩ := hx
  rw [readMulti, ← e]
  have := slide_body b cs h x y t line e
  simp only [List.length_cons, List.length_nil, List.take_succ_cons, List.take_zero, List.drop_succ_cons, List.drop_zero,
    List.map_cons, List.map_nil, List.sum_cons, List.sum_nil]
  rw [← this]
  congr 1
  omega

variable {L : Language}

theorem grammar_on (h : L.comments = true) : L.grammar.oneLine = ['/', '/'] ∧ L.grammar.multiBegin = ['/', '*'] ∧
    L.grammar.multiEnd = ['*', '/'] := by
  simp [Language.grammar, h]

theorem grammar_off (h : L.comments = false) : L.grammar.oneLine = [] ∧ L.grammar.multiBegin = [] := by
  simp [Language.grammar, h]

/-- A character that does not start a comment. -/
theorem skipFrom_char (c : Char) (cs : List Char) (line : Nat) (h : L.comments = true → c ≠ '/') :
    skipFrom L.grammar c cs line = ⟨true, [c], '\x00', line, cs⟩ := by
  cases hc : L.comments with
  | false =>
    obtain ⟨h1, h2⟩ := grammar_off hc
    simp [skipFrom, h1, h2, matchLine, matchMulti]
  | true =>
    obtain ⟨h1, h2, h3⟩ := grammar_on hc
    have := h hc
    simp [skipFrom, h1, h2, matchLine, matchMulti, this]

/-- A slash that does not start a comment. -/
theorem skipFrom_slash (hc : L.comments = true) (c : Char) (cs : List Char) (line : Nat) (h1 : c ≠ '/') (h2 : c ≠ '*') :
    skipFrom L.grammar '/' (c :: cs) line = ⟨true, ['/', c], '\x00', line, cs⟩ := by
  obtain ⟨e1, e2, e3⟩ := grammar_on hc
  simp [skipFrom, e1, e2, matchLine, matchMulti, h1, h2]

theorem skipFrom_line (hc : L.comments = true) (b : List Char) (cs : List Char) (line : Nat) (h1 : b ≠ [])
    (h2 : '\n' ∉ b) :
    skipFrom L.grammar '/' ('/' :: (b ++ '\n' :: cs)) line = ⟨true, [], '\n', line, cs⟩ := by
  obtain ⟨e1, e2, e3⟩ := grammar_on hc
  obtain ⟨c, b, rfl⟩ := List.exists_cons_of_ne_nil h1
  have : '\n' ∉ b := fun e => h2 (by simp [e])
  have e : (['/', '/'] != ([] : List Char)) = true := by decide
  simp [skipFrom, e1, matchLine, e, readLine_body b cs this]

theorem skipFrom_block (hc : L.comments = true) (b : List Char) (cs : List Char) (line : Nat) (h : hasEnd b = false) :
    skipFrom L.grammar '/' ('*' :: (b ++ '*' :: '/' :: cs)) line = ⟨true, [], '\x00', line + nls b, cs⟩ := by
  obtain ⟨e1, e2, e3⟩ := grammar_on hc
  simp only [skipFrom, e1, e2, e3, matchLine, List.nil_append, if_true]
  rw [if_neg (by decide)]
  simp [matchMulti, readMulti_body b cs h]

/-! ### Properties of a language -/

theorem lang_res (hL : L.ok = true) : ∀ c ∈ reserved, c ∉ L.blanks ∧ c ∉ L.signs := by
  simp only [Language.ok, Bool.and_eq_true, List.all_eq_true] at hL
  intro c hc
  have := hL.1 c hc
  simpa using this

theorem lang_disj (hL : L.ok = true) : ∀ c ∈ L.signs, c ∉ L.blanks := by
  simp only [Language.ok, Bool.and_eq_true, List.all_eq_true] at hL
  intro c hc
  have := hL.2 c hc
  simpa using this

theorem sep_of (c : Char) : searchChar L.grammar.seps c = true ↔ c ∈ L.blanks ∨ c = '\x00' := by
  simp [searchChar, Language.grammar]

theorem term_of (c : Char) : searchChar L.grammar.terms c = true ↔ c ∈ L.signs ∨ c = '\x00' := by
  simp [searchChar, Language.grammar]

/-! ### Layout before a token -/

theorem start_end (n line : Nat) : start L.grammar (n + 1) [] line = ⟨false, [], '\x00', line, []⟩ := by
  simp [start, skipComment, skipSeps]

theorem start_blank (n line : Nat) (c : Char) (cs : List Char) (hc : c ∈ L.blanks) :
    start L.grammar (n + 1) (c :: cs) line = start L.grammar (n + 1) cs (line + nl c) := by
  have : searchChar L.grammar.seps c = true := (sep_of c).mpr (.inl hc)
  simp only [start, skipComment, skipSeps, this, if_true]

theorem skip_new (c : Char) (cs : List Char) (line : Nat) (h : c ∉ L.blanks) (h0 : c ≠ '\x00') :
    skipComment L.grammar true (c :: cs) line = skipFrom L.grammar c cs line := by
  have : searchChar L.grammar.seps c = false := by
    rw [Bool.eq_false_iff]; intro e; exact ((sep_of c).mp e).elim h h0
  simp [skipComment, skipSeps, this]

theorem skip_in (c : Char) (cs : List Char) (line : Nat) (h : c ∉ L.blanks) (h0 : c ≠ '\x00') :
    skipComment L.grammar false (c :: cs) line = skipFrom L.grammar c cs line := by
  have : searchChar L.grammar.seps c = false := by
    rw [Bool.eq_false_iff]; intro e; exact ((sep_of c).mp e).elim h h0
  simp [skipComment, this]

theorem skip_in_blank (c : Char) (cs : List Char) (line : Nat) (h : c ∈ L.blanks) :
    skipComment L.grammar false (c :: cs) line = ⟨true, [], c, line, cs⟩ := by
  have : searchChar L.grammar.seps c = true := (sep_of c).mpr (.inl h)
  simp [skipComment, this]

theorem slash_ok (hL : L.ok = true) : '/' ∉ L.blanks ∧ '/' ∉ L.signs := lang_res hL '/' (by decide)

theorem start_line (hL : L.ok = true) (hc : L.comments = true) (n line : Nat) (b cs : List Char) (h1 : b ≠ [])
    (h2 : '\n' ∉ b) :
    start L.grammar (n + 1) ('/' :: '/' :: (b ++ '\n' :: cs)) line = start L.grammar n cs (line + 1) := by
  rw [start, skip_new _ _ _ (slash_ok hL).1 (by decide), skipFrom_line hc b cs line h1 h2]
  simp

theorem start_block (hL : L.ok = true) (hc : L.comments = true) (n line : Nat) (b cs : List Char) (h : hasEnd b = false) :
    start L.grammar (n + 1) ('/' :: '*' :: (b ++ '*' :: '/' :: cs)) line = start L.grammar n cs (line + nls b) := by
  rw [start, skip_new _ _ _ (slash_ok hL).1 (by decide), skipFrom_block hc b cs line h]
  simp

theorem start_char (n line : Nat) (c : Char) (cs : List Char) (h : c ∉ L.blanks) (h0 : c ≠ '\x00')
    (h1 : L.comments = true → c ≠ '/') :
    start L.grammar (n + 1) (c :: cs) line = ⟨true, [c], '\x00', line, cs⟩ := by
  rw [start, skip_new c cs line h h0, skipFrom_char c cs line h1]
  simp [h0]

theorem start_slash (hL : L.ok = true) (hc : L.comments = true) (n line : Nat) (c : Char) (cs : List Char) (h1 : c ≠ '/')
    (h2 : c ≠ '*') :
    start L.grammar (n + 1) ('/' :: c :: cs) line = ⟨true, ['/', c], '\x00', line, cs⟩ := by
  rw [start, skip_new _ _ line (slash_ok hL).1 (by decide), skipFrom_slash hc c cs line h1 h2]
  simp

/-! ### Quoted strings -/

theorem escape_some {c c' : Char} (he : escapeChar c = some c') : QChar.value (.esc c) = [c'] := by
  unfold escapeChar at he
  (repeat' split at he) <;> first | cases he; subst_vars; rfl | cases he

theorem escape_none {c : Char} (he : escapeChar c = none) : QChar.value (.esc c) = ['\\', c] := by
  unfold escapeChar at he
  (repeat' split at he) <;> simp_all [QChar.value]

theorem loop_quoted {g : Verif.Lexer.Grammar} (conv : List Char → Bool) (qs : List QChar) (hq : qs.all QChar.ok = true) (cs : List Char) :
    ∀ n x xs (s : Scan), x :: xs = qs.flatMap QChar.text ++ '"' :: cs → s.isStr = true → s.esc = false → s.buf = [] →
      s.rest = xs → (qs.flatMap QChar.text).length < n →
      loop g conv n x s = { s with
        str := s.str ++ qs.flatMap QChar.value ++ ['"']
        rest := cs
        line := s.line + nls (qs.flatMap QChar.value)
        sep := '"' } := by
  induction qs with
  | nil =>
    intro n x xs s e h1 h2 h3 h4 hn
    simp only [List.flatMap_nil, List.nil_append, List.cons.injEq] at e
    obtain ⟨rfl, rfl⟩ := e
    obtain ⟨n, rfl⟩ : ∃ m, n = m + 1 := ⟨n - 1, by omega⟩
    simp [loop, char, h1, h2, searchChar, nls_nil, h4]
  | cons q qs ih =>
    intro n x xs s e h1 h2 h3 h4 hn
    simp only [List.all_cons, Bool.and_eq_true] at hq
    have hnext : ∃ y ys, y :: ys = qs.flatMap QChar.text ++ '"' :: cs := by
      cases h : qs.flatMap QChar.text ++ '"' :: cs with
      | nil => simp at h
      | cons y ys => exact ⟨y, ys, rfl⟩
    obtain ⟨y, ys, ey⟩ := hnext
    cases q with
    | raw c =>
      simp only [List.flatMap_cons, QChar.text, List.cons_append, List.nil_append, List.cons.injEq] at e hn
      obtain ⟨rfl, rfl⟩ := e
      have hq1 := hq.1
      simp only [QChar.ok, Bool.and_eq_true, decide_eq_true_eq, ne_eq] at hq1
      obtain ⟨⟨q1, q2⟩, q3⟩ := hq1
      simp only [List.length_cons] at hn
      obtain ⟨n, rfl⟩ : ∃ m, n = m + 1 := ⟨n - 1, by omega⟩
      have hs : searchChar ['"'] x = false := by simp [searchChar, q1, q3]
      rw [← ey] at h4
      simp only [loop, char, h1, h2, hs, if_true, Bool.false_and, Bool.false_eq_true, if_false, advance, h3, h4,
        q1, q2, false_and]
      rw [ih hq.2 n y ys _ ey rfl rfl rfl rfl (by omega)]
      simp only [List.flatMap_cons, QChar.value, nls_append, nls_cons, nls_nil, List.append_assoc, List.cons_append,
        List.nil_append, Nat.add_assoc, Nat.add_zero, h3, h2, h1]
    | esc c =>
      simp only [List.flatMap_cons, QChar.text, List.cons_append, List.nil_append, List.cons.injEq] at e hn
      obtain ⟨rfl, rfl⟩ := e
      simp only [List.length_cons] at hn
      obtain ⟨n, rfl⟩ : ∃ m, n = m + 2 := ⟨n - 2, by omega⟩
      have hs : searchChar ['"'] '\\' = false := by decide
      rw [← ey] at h4
      simp only [loop, char, h1, h2, hs, if_true, Bool.false_and, Bool.false_eq_true, if_false, advance, h3, h4,
        (by decide : ¬ ('\\' = '"')), false_and, Bool.not_true, Bool.and_false]
      cases he : escapeChar c with
      | some c' =>
        have hv := escape_some he
        simp only [if_true]
        rw [ih hq.2 n y ys _ ey rfl rfl rfl rfl (by omega)]
        simp only [List.flatMap_cons, hv, nls_append, nls_cons, nls_nil, List.append_assoc, List.cons_append,
          List.nil_append, Nat.add_assoc, Nat.add_zero, h3, h2, h1, (by decide : nl '\\' = 0), Nat.zero_add]
      | none =>
        have hv := escape_none he
        simp only [if_true]
        rw [ih hq.2 n y ys _ ey rfl rfl rfl rfl (by omega)]
        simp only [List.flatMap_cons, hv, nls_append, nls_cons, nls_nil, List.append_assoc, List.cons_append,
          List.nil_append, Nat.add_assoc, Nat.add_zero, h3, h2, h1, (by decide : nl '\\' = 0), Nat.zero_add]

/-! ### Bare words -/

/-- A character of bare words. -/
def Plain (L : Language) (c : Char) : Prop := c ∉ L.blanks ∧ c ∉ L.signs ∧ c ≠ '"' ∧ c ≠ '\\' ∧ c ≠ '\x00'

/-- What ends a bare word: the text, `separator`, `terminal`, what follows, and the ends of line passed. -/
inductive Ends (L : Language) : List Char → Char → Char → List Char → Nat → Prop
  | eof : Ends L [] '\x00' '\x00' [] 0
  | blank (c : Char) (hc : c ∈ L.blanks) (cs : List Char) : Ends L (c :: cs) c '\x00' cs 0
  | sign (c : Char) (hc : c ∈ L.signs) (cs : List Char) : Ends L (c :: cs) '\x00' c cs 0
  | line (hc : L.comments = true) (b : List Char) (h1 : b ≠ []) (h2 : '\n' ∉ b) (cs : List Char) :
      Ends L ('/' :: '/' :: (b ++ '\n' :: cs)) '\n' '\x00' cs 0
  | block (hc : L.comments = true) (b : List Char) (h : hasEnd b = false) (cs : List Char) :
      Ends L ('/' :: '*' :: (b ++ '*' :: '/' :: cs)) '\x00' '\x00' cs (nls b)

theorem char_plain (conv : List Char → Bool) (x : Char) (hx : Plain L x) (s : Scan) (h1 : s.isStr = false)
    (h2 : s.esc = false) : char L.grammar conv x s = ({ s with str := s.str ++ [x] }, x, true) := by
  obtain ⟨a, b, c, d, e⟩ := hx
  have h3 : searchChar L.grammar.seps x = false := by
    rw [Bool.eq_false_iff]; intro e'; exact ((sep_of x).mp e').elim a e
  have h4 : searchChar L.grammar.terms x = false := by
    rw [Bool.eq_false_iff]; intro e'; exact ((term_of x).mp e').elim b e
  simp [char, h1, h2, h3, h4, c, d]

theorem char_blank (conv : List Char → Bool) (x : Char) (hx : x ∈ L.blanks) (s : Scan) (h1 : s.isStr = false)
    (h2 : s.esc = false) (h3 : s.str ≠ []) : char L.grammar conv x s = ({ s with sep := x }, x, false) := by
  have h4 : searchChar L.grammar.seps x = true := (sep_of x).mpr (.inl hx)
  simp [char, h1, h2, h4, h3]

theorem char_sign (hL : L.ok = true) (conv : List Char → Bool) (x : Char) (hx : x ∈ L.signs) (s : Scan)
    (h1 : s.isStr = false) (h2 : s.esc = false) (h3 : s.buf = []) :
    char L.grammar conv x s = ({ s with term := x }, x, false) := by
  have h0 : x ≠ '\x00' := fun e => (lang_res hL '\x00' (by decide)).2 (e ▸ hx)
  have h4 : searchChar L.grammar.seps x = false := by
    rw [Bool.eq_false_iff]; intro e'; exact ((sep_of x).mp e').elim (lang_disj hL x hx) h0
  have h5 : searchChar L.grammar.terms x = true := (term_of x).mpr (.inl hx)
  simp [char, h1, h2, h3, h4, h5]

theorem plain_nl (hx : Plain L x) (h : '\n' ∈ L.blanks) : nl x = 0 := by
  unfold nl; rw [if_neg]; rintro rfl; exact hx.1 h

/-- The next character of a word. -/
theorem advance_plain (x y : Char) (s : Scan) (hx : nl x = 0) (hy : Plain L y) (t : List Char) (h1 : s.isStr = false)
    (h2 : s.buf = []) (h3 : s.rest = y :: t) (h4 : s.sep = '\x00')
    (h5 : L.comments = true → y = '/' → ∃ z zs, t = z :: zs ∧ z ≠ '/' ∧ z ≠ '*') :
    ∃ buf rest, advance L.grammar x s = ({ s with buf := buf, rest := rest }, some y) ∧
      ((buf = [] ∧ rest = t ∧ (L.comments = true → y ≠ '/')) ∨ (L.comments = true ∧ y = '/' ∧ ∃ z, buf = [z] ∧ t = z :: rest)) := by
  obtain ⟨a, b, c, d, e⟩ := hy
  by_cases hc : L.comments = true ∧ y = '/'
  · obtain ⟨hc, rfl⟩ := hc
    obtain ⟨z, zs, rfl, z1, z2⟩ := h5 hc rfl
    refine ⟨[z], zs, ?_, .inr ⟨hc, rfl, z, rfl, rfl⟩⟩
    simp only [advance, h2, h1, h3, Bool.false_eq_true, if_false, hx, Nat.add_zero]
    rw [skip_in _ _ _ a e, skipFrom_slash hc z zs _ z1 z2]
    simp [h4]
  · refine ⟨[], t, ?_, .inl ⟨rfl, rfl, fun h e => hc ⟨h, e⟩⟩⟩
    simp only [advance, h2, h1, h3, Bool.false_eq_true, if_false, hx, Nat.add_zero]
    rw [skip_in _ _ _ a e, skipFrom_char y t _ (fun h e => hc ⟨h, e⟩)]
    simp [h4, e]

/-- A bare word, and what ends it. -/
theorem loop_bare (hL : L.ok = true) (conv : List Char → Bool) (hnl : '\n' ∈ L.blanks) {tail : List Char} {sep term : Char}
    {cs : List Char} {dl : Nat} (he : Ends L tail sep term cs dl) : ∀ (w : List Char) (n : Nat) (x : Char) (s : Scan),
    (∀ c ∈ x :: w, Plain L c) → (L.comments = true → hasComment (x :: w) = false) →
    (L.comments = true → (x :: w).getLast? = some '/' → ∃ z zs, tail = z :: zs ∧ z ≠ '/' ∧ z ≠ '*') →
    s.isStr = false → s.esc = false → s.sep = '\x00' → s.term = '\x00' →
    ((s.buf = [] ∧ s.rest = w ++ tail ∧ (L.comments = true → x ≠ '/')) ∨
      (L.comments = true ∧ x = '/' ∧ ∃ z, s.buf = [z] ∧ w ++ tail = z :: s.rest)) →
    w.length + 2 ≤ n →
    loop L.grammar conv n x s = { s with
      buf := []
      rest := cs
      line := s.line + dl
      str := s.str ++ x :: w
      sep := sep
      term := term } := by
  intro w
  induction w with
  | nil =>
    intro n x s hp hcm hl h1 h2 h3 h4 hb hn
    obtain ⟨n, rfl⟩ : ∃ m, n = m + 2 := ⟨n - 2, by simp at hn; omega⟩
    have hx := hp x (by simp)
    have hx0 := plain_nl hx hnl
    rw [loop, char_plain conv x hx s h1 h2]
    simp only []
    rcases hb with ⟨b1, b2, b3⟩ | ⟨b0, rfl, z, b1, b2⟩
    · simp only [List.nil_append] at b2
      cases he with
      | eof =>
        simp [advance, b1, h1, b2, skipComment, hx0, h2, h3, h4]
      | blank c hc cs =>
        simp [advance, b1, h1, b2, skip_in_blank _ _ _ hc, hx0, h2, h4]
      | sign c hc cs =>
        have h0 : term ≠ '\x00' := fun e => (lang_res hL '\x00' (by decide)).2 (e ▸ hc)
        have hs : term ≠ '/' := fun e => (lang_res hL '/' (by decide)).2 (e ▸ hc)
        simp only [advance, b1, h1, b2, Bool.false_eq_true, if_false, hx0, Nat.add_zero]
        rw [skip_in _ _ _ (lang_disj hL term hc) h0, skipFrom_char term cs _ (fun _ => hs)]
        simp only [if_true, h0, if_false]
        rw [loop, char_sign hL conv term hc]
        · simp [h1, h2]
        · exact h2
        · rfl
      | line hc b c1 c2 cs =>
        simp only [advance, b1, h1, b2, Bool.false_eq_true, if_false, hx0, Nat.add_zero]
        rw [skip_in _ _ _ (slash_ok hL).1 (by decide), skipFrom_line hc b cs _ c1 c2]
        simp [h2, h4]
      | block hc b c1 cs =>
        simp only [advance, b1, h1, b2, Bool.false_eq_true, if_false, hx0, Nat.add_zero]
        rw [skip_in _ _ _ (slash_ok hL).1 (by decide), skipFrom_block hc b cs _ c1]
        simp [h2, h4]
    · simp only [List.nil_append] at b2
      obtain ⟨z', zs', e1, z1, z2⟩ := hl b0 rfl
      have ez : z' = z ∧ zs' = s.rest := by rw [b2] at e1; simpa [eq_comm] using e1
      obtain ⟨rfl, rfl⟩ := ez
      simp only [advance, b1, hx0, Nat.add_zero]
      generalize s.rest = r at *
      subst b2
      cases he with
      | blank c hc cs =>
        rw [loop, char_blank conv _ hc]
        · simp [h4]
        · exact h1
        · exact h2
        · simp
      | sign c hc cs =>
        rw [loop, char_sign hL conv _ hc]
        · simp [h3]
        · exact h1
        · exact h2
        · rfl
      | line => exact absurd rfl z1
      | block => exact absurd rfl z1
  | cons y w ih =>
    intro n x s hp hcm hl h1 h2 h3 h4 hb hn
    simp only [List.length_cons] at hn
    obtain ⟨n, rfl⟩ : ∃ m, n = m + 1 := ⟨n - 1, by omega⟩
    have hx := hp x (by simp)
    have hy := hp y (by simp)
    have hx0 := plain_nl hx hnl
    have hp' : ∀ c ∈ y :: w, Plain L c := fun c hc => hp c (List.mem_cons_of_mem x hc)
    have hcm' : L.comments = true → hasComment (y :: w) = false := fun hc => by
      have := hcm hc; rw [hasComment, Bool.or_eq_false_iff] at this; exact this.2
    have hl' : L.comments = true → (y :: w).getLast? = some '/' → ∃ z zs, tail = z :: zs ∧ z ≠ '/' ∧ z ≠ '*' :=
      fun hc e => hl hc (by rw [List.getLast?_cons_cons]; exact e)
    rw [loop, char_plain conv x hx s h1 h2]
    simp only []
    rcases hb with ⟨b1, b2, b3⟩ | ⟨b0, rfl, z, b1, b2⟩
    · have hslash : L.comments = true → y = '/' → ∃ z zs, w ++ tail = z :: zs ∧ z ≠ '/' ∧ z ≠ '*' := by
        rintro hc rfl
        cases w with
        | nil => exact hl' hc rfl
        | cons z zs =>
          refine ⟨z, zs ++ tail, rfl, ?_⟩
          have := hcm' hc
          rw [hasComment, Bool.or_eq_false_iff] at this
          simpa using this.1
      obtain ⟨buf, rest, ha, hr⟩ := advance_plain x y { s with str := s.str ++ [x] } hx0 hy (w ++ tail) h1 b1 b2 h3 hslash
      rw [ha]
      simp only []
      rw [ih n y _ hp' hcm' hl']
      · simp
      · exact h1
      · exact h2
      · exact h3
      · exact h4
      · rcases hr with ⟨rfl, rfl, e⟩ | ⟨hc, rfl, z, rfl, e⟩
        · exact .inl ⟨rfl, rfl, e⟩
        · exact .inr ⟨hc, rfl, z, rfl, e⟩
      · omega
    · simp only [List.cons_append, List.cons.injEq] at b2
      obtain ⟨rfl, b2⟩ := b2
      simp only [advance, b1, hx0, Nat.add_zero]
      have hy' : y ≠ '/' := by
        rintro rfl
        have := hcm b0
        simp [hasComment] at this
      rw [ih n y _ hp' hcm' hl']
      · simp
      · exact h1
      · exact h2
      · exact h3
      · exact h4
      · exact .inl ⟨rfl, b2.symm, fun _ => hy'⟩
      · omega

end Verif.Lexer
