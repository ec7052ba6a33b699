import Verif.Proof.ConfigText
import Verif.Model.XmlParser
import Verif.Spec.XmlText
/-! ## The lexical analyser with the grammar of XML

The sign `<` starts a comment, or not: the next character is read ahead. One round of the analyser may give many tokens. -/
set_option linter.unusedSimpArgs false
namespace Verif.Xml
open Verif.Token (searchChar)
open Verif.Lexer hiding text_cons ok_cons skip_new skip_in skip_in_blank
open Verif.Spec.Lexer (QChar Language numberLike)
open Verif.Spec.XmlText
open Verif.Config (allTokens parserTok)

/-- The blanks and the signs, as a language without comments. -/
def lang : Language := ⟨blanks, signs, false⟩

theorem plain_iff (c : Char) : plain c = true ↔ Plain lang c := by
  simp [plain, Plain, lang, and_assoc]

theorem seps_iff (c : Char) : searchChar xmlGrammar.seps c = true ↔ c ∈ blanks ∨ c = '\x00' := by
  have : xmlGrammar.seps = blanks := by decide
  simp [searchChar, this]

theorem terms_iff (c : Char) : searchChar xmlGrammar.terms c = true ↔ c ∈ signs ∨ c = '\x00' := by
  have : xmlGrammar.terms = ['<', '>', '{', '}', '/', '(', ')', '<', '>'] := by decide
  simp only [searchChar, this, signs]
  simp
  grind

theorem no_sep {c : Char} (h : c ∉ blanks) (h0 : c ≠ '\x00') : searchChar xmlGrammar.seps c = false := by
  rw [Bool.eq_false_iff]; intro e; exact ((seps_iff c).mp e).elim h h0

theorem no_term {c : Char} (h : c ∉ signs) (h0 : c ≠ '\x00') : searchChar xmlGrammar.terms c = false := by
  rw [Bool.eq_false_iff]; intro e; exact ((terms_iff c).mp e).elim h h0

theorem grammar_eq : xmlGrammar.oneLine = [] ∧ xmlGrammar.multiBegin = ['<', '!', '-', '-'] ∧
    xmlGrammar.multiEnd = ['-', '-', '>'] := by decide

/-! ### After the blanks -/

theorem from_char (c : Char) (cs : List Char) (line : Nat) (h : c ≠ '<') :
    skipFrom xmlGrammar c cs line = ⟨true, [c], '\x00', line, cs⟩ := by
  obtain ⟨h1, h2, _⟩ := grammar_eq
  simp [skipFrom, h1, h2, matchLine, matchMulti, h]

theorem from_lt (c : Char) (cs : List Char) (line : Nat) (h : c ≠ '!') :
    skipFrom xmlGrammar '<' (c :: cs) line = ⟨true, ['<', c], '\x00', line, cs⟩ := by
  obtain ⟨h1, h2, _⟩ := grammar_eq
  simp [skipFrom, h1, h2, matchLine, matchMulti, h]

theorem slide_end (b cs : List Char) (h : hasEnd b = false) : ∀ x y z t line, x :: y :: z :: t = b ++ '-' :: '-' :: '>' :: cs →
    ∃ line', slide ['-', '-', '>'] [x, y, z] t line = (cs, line') := by
  induction b with
  | nil =>
    intro x y z t line e
    simp only [List.nil_append, List.cons.injEq] at e
    obtain ⟨rfl, rfl, rfl, rfl⟩ := e
    cases t with
    | nil => exact ⟨line, by simp [slide]⟩
    | cons c cs => exact ⟨line, by simp [slide]⟩
  | cons c b ih =>
    intro x y z t line e
    simp only [List.cons_append, List.cons.injEq] at e
    obtain ⟨rfl, e⟩ := e
    have hb : hasEnd b = false := by
      simp only [hasEnd, Bool.or_eq_false_iff] at h; exact h.2
    have hne : ¬ ([x, y, z] = ['-', '-', '>']) := by
      intro e2
      simp only [List.cons.injEq, and_true] at e2
      obtain ⟨rfl, rfl, rfl⟩ := e2
      cases b with
      | nil => simp at e
      | cons d b =>
        simp only [List.cons_append, List.cons.injEq] at e
        cases b with
        | nil => simp at e
        | cons d' b =>
          simp only [List.cons_append, List.cons.injEq] at e
          obtain ⟨rfl, rfl, _⟩ := e
          simp [hasEnd] at h
    cases t with
    | nil =>
      have := congrArg List.length e
      simp at this; omega
    | cons w t =>
      simp only [slide, if_neg hne, List.tail_cons, List.cons_append, List.nil_append]
      exact ih hb y z w t _ e

theorem from_comment (b cs : List Char) (line : Nat) (h : hasEnd b = false) :
    ∃ line', skipFrom xmlGrammar '<' ('!' :: '-' :: '-' :: (b ++ '-' :: '-' :: '>' :: cs)) line = ⟨true, [], '\x00', line', cs⟩ := by
  obtain ⟨h1, h2, h3⟩ := grammar_eq
  have hx : ∃ x y z t, x :: y :: z :: t = b ++ '-' :: '-' :: '>' :: cs := by
    match b with
    | [] => exact ⟨_, _, _, _, rfl⟩
    | [x] => exact ⟨_, _, _, _, rfl⟩
    | [x, y] => exact ⟨_, _, _, _, rfl⟩
    | x :: y :: z :: t => exact ⟨_, _, _, _, rfl⟩
  obtain ⟨x, y, z, t, e⟩ := hx
  obtain ⟨line', hl⟩ := slide_end b cs h x y z t (line + (nl x + (nl y + nl z))) e
  refine ⟨line', ?_⟩
  rw [← e]
  simp [skipFrom, h1, h2, h3, matchLine, matchMulti, readMulti, hl]

theorem skip_new (c : Char) (cs : List Char) (line : Nat) (h : c ∉ blanks) (h0 : c ≠ '\x00') :
    skipComment xmlGrammar true (c :: cs) line = skipFrom xmlGrammar c cs line := by
  simp [skipComment, skipSeps, no_sep h h0]

theorem skip_in (c : Char) (cs : List Char) (line : Nat) (h : c ∉ blanks) (h0 : c ≠ '\x00') :
    skipComment xmlGrammar false (c :: cs) line = skipFrom xmlGrammar c cs line := by
  simp [skipComment, no_sep h h0]

theorem skip_in_blank (c : Char) (cs : List Char) (line : Nat) (h : c ∈ blanks) :
    skipComment xmlGrammar false (c :: cs) line = ⟨true, [], c, line, cs⟩ := by
  simp [skipComment, (seps_iff c).mpr (.inl h)]

/-! ### Pieces -/

theorem text_cons (p : XPiece) (ps : List XPiece) : text (p :: ps) = p.text ++ text ps := by simp [text]

theorem ok_cons {p : XPiece} {ps : List XPiece} (h : ok (p :: ps) = true) :
    p.ok = true ∧ p.before ps.head? = true ∧ ok ps = true := by
  simp only [ok, Bool.and_eq_true] at h; exact ⟨h.1.1, h.1.2, h.2⟩

/-- A piece that is a comment. -/
def isComment : Option XPiece → Bool
  | some (.comment _) => true
  | _ => false

/-- A piece that is a word. -/
def isBare : Option XPiece → Bool
  | some (.bare _) => true
  | some (.quoted _) => true
  | _ => false

theorem sign_facts {c : Char} (h : c ∈ signs) : c ∉ blanks ∧ c ≠ '\x00' := by
  simp only [signs, List.mem_cons, List.not_mem_nil, or_false] at h
  rcases h with rfl | rfl | rfl | rfl | rfl | rfl | rfl <;> decide

theorem blank_facts {c : Char} (h : c ∈ blanks) : c ≠ '<' ∧ c ≠ '\x00' ∧ c ≠ '!' := by
  simp only [blanks, List.mem_cons, List.not_mem_nil, or_false] at h
  rcases h with rfl | rfl | rfl | rfl | rfl <;> decide

theorem plain_facts {c : Char} (h : Plain lang c) : c ∉ blanks ∧ c ∉ signs ∧ c ≠ '"' ∧ c ≠ '\\' ∧ c ≠ '\x00' ∧ c ≠ '<' :=
  ⟨h.1, h.2.1, h.2.2.1, h.2.2.2.1, h.2.2.2.2, fun e => h.2.1 (by rw [e]; decide)⟩

theorem bare_facts {w : List Char} (h : (XPiece.bare w).ok = true) : w ≠ [] ∧ ∀ c ∈ w, Plain lang c := by
  simp only [XPiece.ok, Bool.and_eq_true, decide_eq_true_eq, List.all_eq_true] at h
  exact ⟨h.1, fun c hc => (plain_iff c).mp (h.2 c hc)⟩

/-- The first character after `<`. -/
theorem after_lt {ps : List XPiece} (h : ok (.sign '<' :: ps) = true) :
    isComment ps.head? = false ∧ ∃ d t, text ps = d :: t ∧ d ≠ '!' ∧ d ≠ '\x00' := by
  obtain ⟨_, h2, h3⟩ := ok_cons h
  cases ps with
  | nil => simp [XPiece.before] at h2
  | cons p ps =>
    obtain ⟨o1, _, _⟩ := ok_cons h3
    cases p with
    | comment b => simp [XPiece.before] at h2
    | blank c =>
      simp only [XPiece.ok, List.contains_eq_mem, decide_eq_true_eq] at o1
      exact ⟨rfl, c, text ps, by simp [text_cons, XPiece.text], (blank_facts o1).2.2, (blank_facts o1).2.1⟩
    | sign c =>
      simp only [XPiece.ok, List.contains_eq_mem, decide_eq_true_eq] at o1
      exact ⟨rfl, c, text ps, by simp [text_cons, XPiece.text], (by rintro rfl; revert o1; decide), (sign_facts o1).2⟩
    | bare w =>
      obtain ⟨b1, b2⟩ := bare_facts o1
      obtain ⟨c, w, rfl⟩ := List.exists_cons_of_ne_nil b1
      refine ⟨rfl, c, w ++ text ps, by simp [text_cons, XPiece.text], ?_, (b2 c (by simp)).2.2.2.2⟩
      simpa [XPiece.before] using h2
    | quoted s =>
      exact ⟨rfl, '"', _, by rw [text_cons]; rfl, by decide, by decide⟩

/-! ### The loop over the characters -/

variable {num : List Char → Bool}

/-- The word read so far, as tokens. -/
def pend (num : List Char → Bool) (w : List Char) : List (Kind × List Char) := if w = [] then [] else [(bareKind num w, w)]

/-- The state of the loop at the character `x`: what follows is a text of pieces. -/
structure At (ps : List XPiece) (x : Char) (s : Scan) : Prop where
  isStr : s.isStr = false
  esc : s.esc = false
  term : s.term = '\x00'
  chars : x :: (s.buf ++ s.rest) = text ps
  good : ok ps = true
  ahead : s.buf = [] ∨ (x = '<' ∧ ∃ d, s.buf = [d] ∧ d ≠ '\x00')
  plain : ∀ c ∈ s.str, Plain lang c
  word : s.str ≠ [] → isBare ps.head? = false
  comment : isComment ps.head? = false

/-- The end of the loop: the tokens before, those of the loop and those that follow. -/
def Fin (num : List Char → Bool) (ps : List XPiece) (s e : Scan) : Prop :=
  ∃ ps', ok ps' = true ∧
    s.out.map view ++ pend num s.str ++ tokens num ps = (e.out ++ (conclude xmlGrammar num e).1).map view ++ tokens num ps' ∧
    (conclude xmlGrammar num e).2 = text ps' ∧ ((∃ p t, ps = p :: t ∧ (p.token num).isSome) ∨ s.out ≠ [] ∨ s.str ≠ [] →
      e.out ++ (conclude xmlGrammar num e).1 ≠ [])

theorem add_pend (w : List Char) (line : Nat) (h : ∀ c ∈ w, Plain lang c) :
    (addToken num w false line).map view = pend num w := by
  unfold pend
  split
  · next e => subst e; rfl
  · next e => rw [bare_token num w line h e]; rfl

theorem conclude_zero (e : Scan) (h1 : e.isStr = false) (ht : e.term = '\x00') (hp : ∀ c ∈ e.str, Plain lang c) :
    (conclude xmlGrammar num e).1.map view = pend num e.str ∧ (conclude xmlGrammar num e).2 = e.rest := by
  cases hs : e.str with
  | nil =>
    have e0 : addToken num [] e.isStr e.line = [] := rfl
    simp [conclude, hs, ht, e0, pend, cstr]
  | cons c w =>
    have hc : c ≠ '\x00' := (hp c (by simp [hs])).2.2.2.2
    have := conclude_plain (L := lang) num e ht c w hs hc
    have e1 : conclude xmlGrammar num e = conclude lang.grammar num e := rfl
    rw [e1, this, h1, ← hs]
    exact ⟨add_pend e.str e.line hp, rfl⟩

theorem conclude_term (e : Scan) (h1 : e.isStr = false) (ht : e.term ≠ '\x00') (hp : ∀ c ∈ e.str, Plain lang c) :
    (conclude xmlGrammar num e).1.map view = pend num e.str ++ [(.terminal, [e.term])] ∧
      (conclude xmlGrammar num e).2 = e.rest := by
  have hs : e.str = [] ∨ ∃ c w, e.str = c :: w ∧ c ≠ '\x00' := by
    cases hs : e.str with
    | nil => exact .inl rfl
    | cons c w => exact .inr ⟨c, w, rfl, (hp c (by simp [hs])).2.2.2.2⟩
  have := conclude_sign (L := lang) num e ht hs
  have e1 : conclude xmlGrammar num e = conclude lang.grammar num e := rfl
  rw [e1, this, h1, List.map_append, add_pend e.str e.line hp]
  exact ⟨rfl, rfl⟩

/-- The loop ends without a sign, after a word or after a blank. -/
theorem fin_stop {ps ps' : List XPiece} {s e : Scan} (h1 : e.isStr = false) (ht : e.term = '\x00')
    (hp : ∀ c ∈ e.str, Plain lang c) (hok : ok ps' = true) (hr : e.rest = text ps')
    (ho : s.out.map view ++ pend num s.str ++ tokens num ps = e.out.map view ++ pend num e.str ++ tokens num ps')
    (hn : e.out ≠ [] ∨ e.str ≠ [] ∨ ((∀ p t, ps = p :: t → (p.token num).isSome = false) ∧ s.out = [] ∧ s.str = [])) :
    Fin num ps s e := by
  obtain ⟨c1, c2⟩ := conclude_zero (num := num) e h1 ht hp
  refine ⟨ps', hok, ?_, c2.trans hr, ?_⟩
  · rw [List.map_append, c1, ho]
  · intro hyp
    rcases hn with hn | hn | ⟨hn1, hn2, hn3⟩
    · simp [hn]
    · intro e0
      simp only [List.append_eq_nil_iff] at e0
      rw [e0.2] at c1
      simp [pend, hn] at c1
    · rcases hyp with ⟨p, t, hp, hq⟩ | h | h
      · rw [hn1 p t hp] at hq; cases hq
      · exact absurd hn2 h
      · exact absurd hn3 h

/-- The next character. -/
theorem adv (x0 : Char) (ps : List XPiece) (s : Scan) (hi : s.isStr = false) (he : s.esc = false) (ht : s.term = '\x00')
    (hb : s.buf = []) (hr : s.rest = text ps) (hok : ok ps = true) (hp : ∀ c ∈ s.str, Plain lang c)
    (hw : s.str ≠ [] → isBare ps.head? = false) :
    (∃ s' ps', advance xmlGrammar x0 s = (s', none) ∧ s'.str = s.str ∧ s'.out = s.out ∧ s'.term = '\x00' ∧
      s'.isStr = false ∧ ok ps' = true ∧ s'.rest = text ps' ∧ tokens num ps' = tokens num ps) ∨
    (∃ s' y, advance xmlGrammar x0 s = (s', some y) ∧ s'.str = s.str ∧ s'.out = s.out ∧ At ps y s') := by
  have knone : ∀ ok sp l rest, skipComment xmlGrammar false s.rest (s.line + nl x0) = ⟨ok, [], sp, l, rest⟩ →
      advance xmlGrammar x0 s = ({ s with line := l, rest := rest, sep := sp }, none) := by
    intro ok sp l rest h
    simp only [advance, hb, hi, Bool.false_eq_true, if_false, h]
    split <;> rfl
  have ksome : ∀ x xs sp l rest, skipComment xmlGrammar false s.rest (s.line + nl x0) = ⟨true, x :: xs, sp, l, rest⟩ →
      x ≠ '\x00' → advance xmlGrammar x0 s = ({ s with line := l, rest := rest, sep := sp, buf := xs }, some x) := by
    intro x xs sp l rest h h0
    simp only [advance, hb, hi, Bool.false_eq_true, if_false, h, if_true, h0]
  cases ps with
  | nil =>
    left
    exact ⟨_, [], knone false '\x00' (s.line + nl x0) [] (by rw [hr]; rfl), rfl, rfl, ht, hi, rfl, rfl, rfl⟩
  | cons p ps =>
    obtain ⟨o1, o2, o3⟩ := ok_cons hok
    rw [text_cons] at hr
    cases p with
    | blank c =>
      left
      simp only [XPiece.ok, List.contains_eq_mem, decide_eq_true_eq] at o1
      have hk := skip_in_blank c (text ps) (s.line + nl x0) o1
      rw [show c :: text ps = s.rest from hr.symm] at hk
      exact ⟨_, ps, knone _ _ _ _ hk, rfl, rfl, ht, hi, o3, rfl, rfl⟩
    | comment b =>
      left
      simp only [XPiece.ok, Bool.not_eq_true'] at o1
      obtain ⟨line', hl⟩ := from_comment b (text ps) (s.line + nl x0) o1
      have ht' : XPiece.text (.comment b) ++ text ps = '<' :: ('!' :: '-' :: '-' :: (b ++ '-' :: '-' :: '>' :: text ps)) := by
        simp [XPiece.text]
      rw [← skip_in _ _ _ (by decide) (by decide), ← ht', ← hr] at hl
      exact ⟨_, ps, knone _ _ _ _ hl, rfl, rfl, ht, hi, o3, rfl, rfl⟩
    | sign c =>
      right
      simp only [XPiece.ok, List.contains_eq_mem, decide_eq_true_eq] at o1
      obtain ⟨f1, f2⟩ := sign_facts o1
      by_cases hc : c = '<'
      · subst hc
        obtain ⟨a1, d, t, a2, a3, a4⟩ := after_lt hok
        have hk := (skip_in '<' (d :: t) (s.line + nl x0) f1 f2).trans (from_lt d t _ a3)
        rw [← a2, show '<' :: text ps = s.rest from hr.symm] at hk
        refine ⟨_, '<', ksome _ _ _ _ _ hk f2, rfl, rfl, ⟨hi, he, ht, ?_, hok, .inr ⟨rfl, d, rfl, a4⟩, hp, hw, rfl⟩⟩
        rw [text_cons, a2]; rfl
      · have hk := (skip_in c (text ps) (s.line + nl x0) f1 f2).trans (from_char c (text ps) _ hc)
        rw [show c :: text ps = s.rest from hr.symm] at hk
        refine ⟨_, c, ksome _ _ _ _ _ hk f2, rfl, rfl, ⟨hi, he, ht, ?_, hok, .inl rfl, hp, hw, rfl⟩⟩
        rw [text_cons]; rfl
    | bare w =>
      right
      obtain ⟨b1, b2⟩ := bare_facts o1
      obtain ⟨c, w, rfl⟩ := List.exists_cons_of_ne_nil b1
      obtain ⟨f1, _, _, _, f2, f3⟩ := plain_facts (b2 c (by simp))
      have hk := (skip_in c (w ++ text ps) (s.line + nl x0) f1 f2).trans (from_char c _ _ f3)
      rw [show c :: (w ++ text ps) = s.rest from hr.symm] at hk
      refine ⟨_, c, ksome _ _ _ _ _ hk f2, rfl, rfl, ⟨hi, he, ht, ?_, hok, .inl rfl, hp, hw, rfl⟩⟩
      rw [text_cons]; rfl
    | quoted q =>
      right
      have hk := (skip_in '"' ((q.flatMap QChar.text ++ ['"']) ++ text ps) (s.line + nl x0) (by decide) (by decide)).trans
        (from_char '"' _ _ (by decide))
      rw [show '"' :: ((q.flatMap QChar.text ++ ['"']) ++ text ps) = s.rest from hr.symm] at hk
      refine ⟨_, '"', ksome _ _ _ _ _ hk (by decide), rfl, rfl, ⟨hi, he, ht, ?_, hok, .inl rfl, hp, hw, rfl⟩⟩
      rw [text_cons]; rfl

/-- The loop goes on with the next character, if there is one. -/
def next (num : List Char → Bool) (n : Nat) (a : Scan × Option Char) : Scan :=
  match a.2 with
  | none => a.1
  | some c => loop xmlGrammar num n c a.1

theorem loop_on {n : Nat} {x c : Char} {s s1 : Scan} (h : char xmlGrammar num x s = (s1, c, true)) :
    loop xmlGrammar num (n + 1) x s = next num n (advance xmlGrammar c s1) := by
  rw [loop, h]
  simp only [next]
  rcases advance xmlGrammar c s1 with ⟨s2, _ | y⟩ <;> rfl

theorem loop_stop {n : Nat} {x c : Char} {s s1 : Scan} (h : char xmlGrammar num x s = (s1, c, false)) :
    loop xmlGrammar num (n + 1) x s = s1 := by
  rw [loop, h]

/-- The characters of a bare word. -/
theorem loop_word (tail : List Char) (n : Nat) : ∀ (w : List Char) (x : Char) (s : Scan), (∀ c ∈ x :: w, Plain lang c) →
    s.isStr = false → s.esc = false → s.buf = [] → s.rest = w ++ tail →
    ∃ y s', loop xmlGrammar num (w.length + 1 + n) x s = next num n (advance xmlGrammar y s') ∧
      s'.str = s.str ++ x :: w ∧ s'.rest = tail ∧ s'.buf = [] ∧ s'.isStr = false ∧ s'.esc = false ∧ s'.term = s.term ∧
      s'.out = s.out := by
  intro w
  induction w with
  | nil =>
    intro x s hp h1 h2 h3 h4
    obtain ⟨f1, f2, f3, f4, f5, f6⟩ := plain_facts (hp x (by simp))
    refine ⟨x, { s with str := s.str ++ [x] }, ?_, rfl, h4, h3, h1, h2, rfl, rfl⟩
    rw [show ([] : List Char).length + 1 + n = n + 1 by simp; omega]
    refine loop_on ?_
    simp only [char, h1, h2, Bool.false_eq_true, if_false, no_sep f1 f5, no_term f2 f5, Bool.false_and, f3, false_and, f4]
  | cons y w ih =>
    intro x s hp h1 h2 h3 h4
    obtain ⟨f1, f2, f3, f4, f5, f6⟩ := plain_facts (hp x (by simp))
    obtain ⟨g1, g2, g3, g4, g5, g6⟩ := plain_facts (hp y (by simp))
    obtain ⟨z, s', i1, i2, i3, i4, i5, i6, i7, i8⟩ := ih y
      { s with str := s.str ++ [x], line := s.line + nl x, rest := w ++ tail, sep := '\x00', buf := [] }
      (fun c hc => hp c (List.mem_cons_of_mem x hc)) h1 h2 rfl rfl
    refine ⟨z, s', ?_, by rw [i2]; simp, i3, i4, i5, i6, i7, i8⟩
    rw [← i1, show (y :: w).length + 1 + n = (w.length + 1 + n) + 1 by simp; omega]
    have hk : skipComment xmlGrammar false s.rest (s.line + nl x) = ⟨true, [y], '\x00', s.line + nl x, w ++ tail⟩ := by
      rw [h4]; exact (skip_in y (w ++ tail) _ g1 g5).trans (from_char y _ _ g6)
    rw [loop_on (s1 := { s with str := s.str ++ [x] }) (c := x) (by
      simp only [char, h1, h2, Bool.false_eq_true, if_false, no_sep f1 f5, no_term f2 f5, Bool.false_and, f3, false_and, f4])]
    simp only [advance, h3, h1, Bool.false_eq_true, hk, if_true, g5, if_false, next]

theorem tokens_cons (p : XPiece) (ps : List XPiece) : tokens num (p :: ps) = (p.token num).toList ++ tokens num ps := by
  unfold tokens
  cases h : p.token num <;> simp [List.filterMap_cons, h]

/-- The loop over the characters of a text. -/
theorem go : ∀ (ps : List XPiece) (n : Nat) (x : Char) (s : Scan), At ps x s → (text ps).length ≤ n →
    Fin num ps s (loop xmlGrammar num n x s) := by
  intro ps
  induction ps with
  | nil => intro n x s h; have := h.chars; simp [text] at this
  | cons p ps ih =>
    intro n x s h hn
    obtain ⟨o1, o2, o3⟩ := ok_cons h.good
    have hch := h.chars
    rw [text_cons] at hch hn
    rw [List.length_append] at hn
    cases p with
    | comment b => have := h.comment; simp [isComment] at this
    | blank c =>
      simp only [XPiece.ok, List.contains_eq_mem, decide_eq_true_eq] at o1
      simp only [XPiece.text, List.cons_append, List.nil_append, List.cons.injEq] at hch
      obtain ⟨rfl, hch⟩ := hch
      have hb : s.buf = [] := h.ahead.resolve_right fun e => (blank_facts o1).1 e.1
      rw [hb, List.nil_append] at hch
      obtain ⟨n, rfl⟩ : ∃ m, n = m + 1 := ⟨n - 1, by simp [XPiece.text] at hn; omega⟩
      have hs := (seps_iff x).mpr (.inl o1)
      have htk : tokens num (.blank x :: ps) = tokens num ps := rfl
      by_cases hstr : s.str = []
      · have hl : loop xmlGrammar num (n + 1) x s = next num n (advance xmlGrammar x { s with sep := x }) :=
          loop_on (by simp [char, h.isStr, h.esc, hs, hstr])
        rw [hl]
        rcases adv (num := num) x ps { s with sep := x } h.isStr h.esc h.term hb hch o3 h.plain (fun e => absurd hstr e) with
          ⟨s', ps', a1, a2, a3, a4, a5, a6, a7, a8⟩ | ⟨s', y, a1, a2, a3, a4⟩
        · rw [a1]
          show Fin num _ s s'
          refine fin_stop a5 a4 (by rw [a2]; exact h.plain) a6 a7 (by rw [a2, a3, a8, htk]) ?_
          rw [a2, a3]
          by_cases ho : s.out = []
          · exact .inr (.inr ⟨by rintro p t ⟨⟩; rfl, ho, hstr⟩)
          · exact .inl ho
        · rw [a1]
          show Fin num _ s (loop xmlGrammar num n y s')
          obtain ⟨ps', b1, b2, b3, b4⟩ := ih n y s' a4 (by simp [XPiece.text] at hn; omega)
          refine ⟨ps', b1, by rw [← b2, a2, a3, htk], b3, ?_⟩
          intro hyp
          refine b4 ?_
          rw [a2, a3]
          rcases hyp with ⟨p, t, ⟨⟩, hq⟩ | hyp
          · cases hq
          · exact .inr hyp
      · have hl : loop xmlGrammar num (n + 1) x s = { s with sep := x } :=
          loop_stop (c := x) (by simp [char, h.isStr, h.esc, hs, hstr])
        rw [hl]
        exact fin_stop h.isStr h.term h.plain o3 hch (by rw [htk]) (.inr (.inl hstr))
    | sign c =>
      simp only [XPiece.ok, List.contains_eq_mem, decide_eq_true_eq] at o1
      simp only [XPiece.text, List.cons_append, List.nil_append, List.cons.injEq] at hch
      obtain ⟨rfl, hch⟩ := hch
      obtain ⟨f1, f2⟩ := sign_facts o1
      obtain ⟨n, rfl⟩ : ∃ m, n = m + 1 := ⟨n - 1, by simp [XPiece.text] at hn; omega⟩
      have hs := no_sep f1 f2
      have ht := (terms_iff x).mpr (.inl o1)
      rcases h.ahead with hb | ⟨rfl, d, hb, hd⟩
      · have hl : loop xmlGrammar num (n + 1) x s = { s with term := x } := by
          simp [loop, char, h.isStr, h.esc, hs, ht, hb]
        rw [hl]
        obtain ⟨c1, c2⟩ := conclude_term (num := num) { s with term := x } h.isStr f2 h.plain
        rw [hb, List.nil_append] at hch
        refine ⟨ps, o3, ?_, c2.trans hch, ?_⟩
        · rw [List.map_append, c1, tokens_cons]; simp [XPiece.token]
        · intro _ e
          simp only [List.append_eq_nil_iff] at e
          rw [e.2] at c1; simp at c1
      · have hl : loop xmlGrammar num (n + 1) '<' s = loop xmlGrammar num n d { s with
            out := s.out ++ addToken num s.str s.isStr s.line ++ [⟨.terminal, ['<'], s.line⟩]
            str := []
            line := s.line + nl '<'
            buf := [] } := by
          conv => lhs; rw [loop]
          simp [char, h.isStr, h.esc, hs, ht, hb, advance]
        rw [hl]
        obtain ⟨e1, _⟩ := after_lt h.good
        rw [hb] at hch
        obtain ⟨ps', b1, b2, b3, b4⟩ := ih n d { s with
            out := s.out ++ addToken num s.str s.isStr s.line ++ [⟨.terminal, ['<'], s.line⟩]
            str := []
            line := s.line + nl '<'
            buf := [] } ⟨h.isStr, h.esc, h.term, hch, o3, .inl rfl, fun c hc => (by cases hc), fun e => absurd rfl e, e1⟩
          (by simp [XPiece.text] at hn; omega)
        refine ⟨ps', b1, ?_, b3, fun _ => b4 (.inr (.inl (by simp)))⟩
        rw [← b2, tokens_cons, h.isStr]
        simp only [List.map_append, add_pend s.str s.line h.plain]
        simp [XPiece.token, view, pend]
    | bare w =>
      obtain ⟨b1, b2⟩ := bare_facts o1
      obtain ⟨c, w, rfl⟩ := List.exists_cons_of_ne_nil b1
      simp only [XPiece.text, List.cons_append, List.cons.injEq] at hch
      obtain ⟨rfl, hch⟩ := hch
      obtain ⟨f1, _, _, _, f2, f3⟩ := plain_facts (b2 x (by simp))
      have hb : s.buf = [] := h.ahead.resolve_right fun e => f3 e.1
      rw [hb, List.nil_append] at hch
      have hstr : s.str = [] := by
        by_cases e : s.str = []
        · exact e
        · have := h.word e; simp [isBare] at this
      simp only [XPiece.text, List.length_cons] at hn
      obtain ⟨n, rfl⟩ : ∃ m, n = w.length + 1 + m := ⟨n - (w.length + 1), by omega⟩
      obtain ⟨y, s1, i1, i2, i3, i4, i5, i6, i7, i8⟩ := loop_word (num := num) (text ps) n w x s b2 h.isStr h.esc hb hch
      rw [hstr, List.nil_append] at i2
      have hne : s1.str ≠ [] := by rw [i2]; simp
      have hpl : ∀ c ∈ s1.str, Plain lang c := by rw [i2]; exact b2
      have htk : tokens num (.bare (x :: w) :: ps) = pend num s1.str ++ tokens num ps := by
        rw [tokens_cons, i2]; rfl
      have hbare : isBare ps.head? = false := by
        cases ps with
        | nil => rfl
        | cons p ps => cases p <;> first | rfl | simp [XPiece.before] at o2
      rw [i1]
      rcases adv (num := num) y ps s1 i5 i6 (i7.trans h.term) i4 i3 o3 hpl (fun _ => hbare) with
          ⟨s', ps', a1, a2, a3, a4, a5, a6, a7, a8⟩ | ⟨s', y, a1, a2, a3, a4⟩
      · rw [a1]
        show Fin num _ s s'
        refine fin_stop a5 a4 (by rw [a2]; exact hpl) a6 a7 ?_ (.inr (.inl (by rw [a2]; exact hne)))
        rw [a2, a3, i8, htk, a8, hstr]; simp [pend]
      · rw [a1]
        show Fin num _ s (loop xmlGrammar num n y s')
        obtain ⟨ps', c1, c2, c3, c4⟩ := ih n y s' a4 (by omega)
        refine ⟨ps', c1, ?_, c3, fun _ => c4 (.inr (.inr (by rw [a2]; exact hne)))⟩
        rw [← c2, a2, a3, i8, htk, hstr]; simp [pend]
    | quoted q =>
      simp only [XPiece.text, List.cons_append, List.cons.injEq] at hch
      obtain ⟨rfl, hch⟩ := hch
      simp only [XPiece.ok] at o1
      have hb : s.buf = [] := h.ahead.resolve_right fun e => absurd e.1 (by decide)
      rw [hb, List.nil_append, List.append_assoc, List.cons_append, List.nil_append] at hch
      have hstr : s.str = [] := by
        by_cases e : s.str = []
        · exact e
        · have := h.word e; simp [isBare] at this
      simp only [XPiece.text, List.length_cons, List.length_append, List.length_nil] at hn
      obtain ⟨n, rfl⟩ : ∃ m, n = m + 1 := ⟨n - 1, by omega⟩
      have hs : searchChar xmlGrammar.seps '"' = false := no_sep (by decide) (by decide)
      have ht : searchChar xmlGrammar.terms '"' = false := no_term (by decide) (by decide)
      obtain ⟨y, ys, ey⟩ : ∃ y ys, y :: ys = q.flatMap QChar.text ++ '"' :: text ps := by
        cases hq : q.flatMap QChar.text ++ '"' :: text ps with
        | nil => simp at hq
        | cons y ys => exact ⟨y, ys, rfl⟩
      have hl : loop xmlGrammar num (n + 1) '"' s = loop xmlGrammar num n y { s with
            isStr := true
            str := ['"']
            line := s.line + nl '"'
            rest := ys } := by
        conv => lhs; rw [loop]
        simp [char, h.isStr, h.esc, hs, ht, hb, hstr, advance, hch, ← ey]
      have hq := loop_quoted (g := xmlGrammar) num q o1 (text ps) n y ys { s with
            isStr := true
            str := ['"']
            line := s.line + nl '"'
            rest := ys } ey rfl h.esc hb rfl (by omega)
      rw [hl, hq]
      have e1 : ∀ e, conclude xmlGrammar num e = conclude lang.grammar num e := fun _ => rfl
      have hcl := conclude_plain (L := lang) num { s with
            isStr := true
            str := ['"'] ++ q.flatMap QChar.value ++ ['"']
            line := s.line + nl '"' + nls (q.flatMap QChar.value)
            rest := text ps
            sep := '"' } h.term '"' (q.flatMap QChar.value ++ ['"']) (by simp) (by decide)
      have htok := quoted_token num q (s.line + nl '"' + nls (q.flatMap QChar.value)) o1
      refine ⟨ps, o3, ?_, ?_, ?_⟩
      · rw [e1, hcl]
        simp only [List.cons_append, List.nil_append]
        rw [htok, tokens_cons, hstr]
        simp [XPiece.token, view, pend]
      · rw [e1, hcl]
      · intro _
        rw [e1, hcl]
        simp only [List.cons_append, List.nil_append]
        rw [htok]; simp

/-! ### Rounds -/

theorem start_blank (n line : Nat) (c : Char) (cs : List Char) (hc : c ∈ blanks) :
    start xmlGrammar (n + 1) (c :: cs) line = start xmlGrammar (n + 1) cs (line + nl c) := by
  have : searchChar xmlGrammar.seps c = true := (seps_iff c).mpr (.inl hc)
  simp only [start, skipComment, skipSeps, this, if_true]

/-- What comes before the first word of a text is skipped. -/
theorem start_text : ∀ (ps : List XPiece), ok ps = true → ∀ n line, (text ps).length < n →
    (tokens num ps = [] ∧ ∃ line', start xmlGrammar n (text ps) line = ⟨false, [], '\x00', line', []⟩) ∨
    (∃ ps1 p t x buf rest line', ps1 = p :: t ∧ (p.token num).isSome = true ∧ tokens num ps1 = tokens num ps ∧
      (text ps1).length ≤ (text ps).length ∧ start xmlGrammar n (text ps) line = ⟨true, x :: buf, '\x00', line', rest⟩ ∧
      At ps1 x ⟨buf, rest, line', [], false, false, '\x00', '\x00', []⟩) := by
  intro ps
  induction ps with
  | nil =>
    intro _ n line hn
    obtain ⟨n, rfl⟩ : ∃ m, n = m + 1 := ⟨n - 1, by omega⟩
    left
    refine ⟨rfl, line, ?_⟩
    have : text [] = [] := rfl
    simp [this, start, skipComment, skipSeps]
  | cons p ps ih =>
    intro hok n line hn
    obtain ⟨o1, o2, o3⟩ := ok_cons hok
    obtain ⟨n, rfl⟩ : ∃ m, n = m + 1 := ⟨n - 1, by omega⟩
    have hn' := hn
    rw [text_cons, List.length_append] at hn'
    have word : ∀ c cs buf rest, text (p :: ps) = c :: cs → c ∉ blanks → c ≠ '\x00' →
        skipFrom xmlGrammar c cs line = ⟨true, c :: buf, '\x00', line, rest⟩ → (p.token num).isSome = true →
        At (p :: ps) c ⟨buf, rest, line, [], false, false, '\x00', '\x00', []⟩ →
        (∃ ps1 p' t x buf rest line', ps1 = p' :: t ∧ (p'.token num).isSome = true ∧ tokens num ps1 = tokens num (p :: ps) ∧
          (text ps1).length ≤ (text (p :: ps)).length ∧
          start xmlGrammar (n + 1) (text (p :: ps)) line = ⟨true, x :: buf, '\x00', line', rest⟩ ∧
          At ps1 x ⟨buf, rest, line', [], false, false, '\x00', '\x00', []⟩) := by
      intro c cs buf rest h1 h2 h3 h4 h5 h6
      refine ⟨p :: ps, p, ps, c, buf, rest, line, rfl, h5, rfl, Nat.le_refl _, ?_, h6⟩
      rw [h1, start, skip_new c cs line h2 h3, h4]
      simp [h3]
    cases p with
    | blank c =>
      simp only [XPiece.ok, List.contains_eq_mem, decide_eq_true_eq] at o1
      have e : start xmlGrammar (n + 1) (text (.blank c :: ps)) line = start xmlGrammar (n + 1) (text ps) (line + nl c) := by
        rw [text_cons]; exact start_blank n line c _ o1
      have et : tokens num (.blank c :: ps) = tokens num ps := rfl
      rw [e, et, text_cons, List.length_append]
      rcases ih o3 (n + 1) (line + nl c) (by simp [XPiece.text] at hn'; omega) with h | ⟨ps1, p, t, x, buf, rest, line', h1, h2, h3, h4, h5⟩
      · exact .inl h
      · exact .inr ⟨ps1, p, t, x, buf, rest, line', h1, h2, h3, by omega, h5⟩
    | comment b =>
      simp only [XPiece.ok, Bool.not_eq_true'] at o1
      obtain ⟨line1, hl⟩ := from_comment b (text ps) line o1
      have ht' : text (.comment b :: ps) = '<' :: ('!' :: '-' :: '-' :: (b ++ '-' :: '-' :: '>' :: text ps)) := by
        simp [text_cons, XPiece.text]
      have e : start xmlGrammar (n + 1) (text (.comment b :: ps)) line = start xmlGrammar n (text ps) line1 := by
        rw [ht', start, skip_new _ _ _ (by decide) (by decide), hl]; simp
      have et : tokens num (.comment b :: ps) = tokens num ps := rfl
      rw [e, et, text_cons, List.length_append]
      rcases ih o3 n line1 (by simp [XPiece.text] at hn'; omega) with h | ⟨ps1, p, t, x, buf, rest, line', h1, h2, h3, h4, h5⟩
      · exact .inl h
      · exact .inr ⟨ps1, p, t, x, buf, rest, line', h1, h2, h3, by omega, h5⟩
    | sign c =>
      right
      simp only [XPiece.ok, List.contains_eq_mem, decide_eq_true_eq] at o1
      obtain ⟨f1, f2⟩ := sign_facts o1
      by_cases hc : c = '<'
      · subst hc
        obtain ⟨a1, d, t, a2, a3, a4⟩ := after_lt hok
        have e : text (.sign '<' :: ps) = '<' :: d :: t := by rw [text_cons, a2]; rfl
        exact word '<' (d :: t) [d] t e f1 f2 (from_lt d t line a3) rfl
          ⟨rfl, rfl, rfl, by rw [e]; rfl, hok, .inr ⟨rfl, d, rfl, a4⟩, fun c hc => (by cases hc), fun e => absurd rfl e, rfl⟩
      · have e : text (.sign c :: ps) = c :: text ps := by rw [text_cons]; rfl
        exact word c (text ps) [] (text ps) e f1 f2 (from_char c _ line hc) rfl
          ⟨rfl, rfl, rfl, by rw [e]; rfl, hok, .inl rfl, fun c hc => (by cases hc), fun e => absurd rfl e, rfl⟩
    | bare w =>
      right
      obtain ⟨b1, b2⟩ := bare_facts o1
      obtain ⟨c, w, rfl⟩ := List.exists_cons_of_ne_nil b1
      obtain ⟨f1, _, _, _, f2, f3⟩ := plain_facts (b2 c (by simp))
      have e : text (.bare (c :: w) :: ps) = c :: (w ++ text ps) := by rw [text_cons]; rfl
      exact word c _ [] _ e f1 f2 (from_char c _ line f3) rfl
          ⟨rfl, rfl, rfl, by rw [e]; rfl, hok, .inl rfl, fun c hc => (by cases hc), fun e => absurd rfl e, rfl⟩
    | quoted q =>
      right
      have e : text (.quoted q :: ps) = '"' :: ((q.flatMap QChar.text ++ ['"']) ++ text ps) := by rw [text_cons]; rfl
      exact word '"' _ [] _ e (by decide) (by decide) (from_char '"' _ line (by decide)) rfl
          ⟨rfl, rfl, rfl, by rw [e]; rfl, hok, .inl rfl, fun c hc => (by cases hc), fun e => absurd rfl e, rfl⟩

/-- One round: the tokens it adds, and those that follow. -/
theorem round_text (ps : List XPiece) (hok : ok ps = true) (line : Nat) :
    (tokens num ps = [] ∧ ∃ l t, t.kind = .eof ∧ round xmlGrammar num ⟨[], text ps, line⟩ = ⟨[t], [], l⟩) ∨
    (∃ q ps' l, q ≠ [] ∧ ok ps' = true ∧ tokens num ps = q.map view ++ tokens num ps' ∧
      round xmlGrammar num ⟨[], text ps, line⟩ = ⟨q, text ps', l⟩) := by
  rcases start_text (num := num) ps hok ((text ps).length + 1) line (by omega) with
    ⟨h1, line', h2⟩ | ⟨ps1, p, t, x, buf, rest, line', h1, h2, h3, h4, h5, h6⟩
  · left
    exact ⟨h1, line', ⟨.eof, [], line'⟩, rfl, by simp [round, h2]⟩
  · right
    obtain ⟨ps', g1, g2, g3, g4⟩ := go (num := num) ps1 ((text ps).length + 1) x _ h6 (by omega)
    generalize he : loop xmlGrammar num ((text ps).length + 1) x
      ⟨buf, rest, line', [], false, false, '\x00', '\x00', []⟩ = e at g2 g3 g4
    refine ⟨e.out ++ (conclude xmlGrammar num e).1, ps', if e.sep = '\n' then e.line + 1 else e.line,
      g4 (.inl ⟨p, t, h1, h2⟩), g1, ?_, ?_⟩
    · rw [← g2, ← h3]; simp [pend]
    · simp only [round, h5, if_true, List.headD_cons, List.tail_cons, List.nil_append, he]
      rw [← g3]

theorem kinds (ps : List XPiece) : ∀ t ∈ tokens num ps, t.1 ≠ .eof := by
  intro t ht e
  obtain ⟨p, _, hp⟩ := List.mem_filterMap.mp ht
  cases p <;> simp only [XPiece.token, Option.some.injEq, reduceCtorEq] at hp
  · rw [← hp] at e; cases e
  · rw [← hp] at e; simp only at e; split at e <;> cases e
  · rw [← hp] at e; cases e

/-- All the tokens of a text. -/
theorem all_of : ∀ (n : Nat) (q : List Token) (ps : List XPiece) (line : Nat), ok ps = true → (∀ t ∈ q, t.kind ≠ .eof) →
    q.length + (tokens num ps).length < n →
    (allTokens xmlGrammar num n ⟨q, text ps, line⟩).map view = q.map view ++ tokens num ps := by
  intro n
  induction n with
  | zero => intro q ps line _ _ h; omega
  | succ n ih =>
    intro q ps line hok hq hn
    have base : ∀ (t : Token) (q : List Token) (ps : List XPiece) (l : Nat), ok ps = true → (∀ u ∈ t :: q, u.kind ≠ .eof) →
        (t :: q).length + (tokens num ps).length < n + 1 →
        (if t.kind = .eof then [] else t :: allTokens xmlGrammar num n ⟨q, text ps, l⟩).map view =
          (t :: q).map view ++ tokens num ps := by
      intro t q ps l h1 h2 h3
      rw [if_neg (h2 t (by simp)), List.map_cons, ih q ps l h1 (fun u hu => h2 u (by simp [hu])) (by simp at h3; omega)]
      rfl
    cases q with
    | cons t q =>
      have e : getToken xmlGrammar num ⟨t :: q, text ps, line⟩ = (some t, ⟨q, text ps, line⟩) := by
        simp [getToken, tokenizeInput]
      rw [allTokens, e]
      exact base t q ps line hok hq hn
    | nil =>
      rcases round_text (num := num) ps hok line with ⟨h1, l, t, h2, h3⟩ | ⟨q, ps', l, h1, h2, h3, h4⟩
      · have e : getToken xmlGrammar num ⟨[], text ps, line⟩ = (some t, ⟨[], [], l⟩) := by
          simp [getToken, tokenizeInput, h3]
        rw [allTokens, e]
        simp [h1, h2]
      · obtain ⟨t, q, rfl⟩ := List.exists_cons_of_ne_nil h1
        have e : getToken xmlGrammar num ⟨[], text ps, line⟩ = (some t, ⟨q, text ps', l⟩) := by
          simp [getToken, tokenizeInput, h4]
        rw [allTokens, e]
        rw [h3] at hn ⊢
        refine base t q ps' l h2 ?_ (by simp at hn ⊢; omega)
        intro u hu e
        exact kinds (num := num) ps (view u) (by rw [h3]; exact List.mem_append_left _ (List.mem_map_of_mem hu)) e

theorem tokens_le (ps : List XPiece) (h : ok ps = true) : (tokens num ps).length ≤ (text ps).length := by
  induction ps with
  | nil => simp [tokens]
  | cons p ps ih =>
    obtain ⟨o1, o2, o3⟩ := ok_cons h
    have := ih o3
    rw [tokens_cons, text_cons, List.length_append, List.length_append]
    cases p with
    | bare w =>
      have hw := List.length_pos_iff.mpr (bare_facts o1).1
      simp only [XPiece.token, XPiece.text, Option.toList, List.length_singleton]; omega
    | _ => simp [XPiece.token, XPiece.text]; omega

/-! ### From the text to the words -/
open Verif.Spec.XmlDoc (XWord xtok)
open Verif.Config (Conv Leaf quote_value quote_ok)

theorem parser_tok (w : XWord) (t : Token) (h : view t = token w) : parserTok terminalNames t = xtok w := by
  obtain ⟨k, d, l⟩ := t
  cases w <;> (simp only [view, token, Prod.mk.injEq] at h; obtain ⟨rfl, rfl⟩ := h; simp only [parserTok, xtok]; congr 1)

theorem map_tok (ws : List XWord) (E : List Token) (h : E.map view = ws.map token) :
    E.map (parserTok terminalNames) = ws.map xtok := by
  induction ws generalizing E with
  | nil =>
    have : E = [] := by simpa using h
    rw [this]; rfl
  | cons w ws ih =>
    cases E with
    | nil => simp at h
    | cons t E =>
      simp only [List.map_cons, List.cons.injEq] at h ⊢
      exact ⟨parser_tok w t h.1, ih E h.2⟩

theorem text_words {B : Type} (conv : Conv B) (cap fuel : Nat) (db : ConfigDb.St (Leaf B)) (ps : List XPiece)
    (ws : List XWord) (h : Says num ps ws) :
    parseXmlText conv num cap fuel db (text ps) = parseXml conv cap fuel db (ws.map xtok) := by
  have hl := tokens_le (num := num) ps h.1
  have := all_of (num := num) ((text ps).length + 1) [] ps 1 h.1 (fun t ht => (by cases ht)) (by simp; omega)
  rw [parseXmlText]
  congr 1
  refine map_tok ws _ ?_
  rw [← h.2]
  exact this

theorem write_says (ws : List XWord) (h : ∀ w ∈ ws, writable num w = true) : Says num (write ws) ws := by
  induction ws with
  | nil => exact ⟨rfl, rfl⟩
  | cons w ws ih =>
    obtain ⟨i1, i2⟩ := ih fun w hw => h w (by simp [hw])
    have hw := h w (by simp)
    have e : write (w :: ws) = piece w :: .blank ' ' :: write ws := rfl
    have hp : (piece w).ok = true ∧ (piece w).token num = some (token w) := by
      cases w with
      | str s =>
        simp only [writable, Bool.not_eq_true', List.contains_eq_mem, decide_eq_false_iff_not] at hw
        exact ⟨quote_ok s hw, by simp [piece, XPiece.token, token, quote_value]⟩
      | num s =>
        simp only [writable, Bool.and_eq_true] at hw
        refine ⟨hw.1.1, ?_⟩
        simp [piece, XPiece.token, token, hw.1.2, hw.2]
      | _ => exact ⟨by decide, rfl⟩
    refine ⟨?_, ?_⟩
    · rw [e]
      have hb : (piece w).before (some (.blank ' ')) = true := by cases w <;> rfl
      have hb2 : (XPiece.blank ' ').ok = true := by decide
      have hb3 : (XPiece.blank ' ').before (write ws).head? = true := by
        cases (write ws).head? <;> rfl
      simp only [ok, List.head?_cons, hp.1, hb, hb2, hb3, i1, Bool.and_self]
    · rw [e, tokens_cons, tokens_cons, hp.2, i2]
      rfl

end Verif.Xml
