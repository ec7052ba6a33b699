import Verif.Proof.ConfigText
import Verif.Props.ConfigParser
/-! ## C52: from the text to the tokens, and to the database -/
namespace Verif.Lexer
open Verif.Spec.Lexer

/-- Whatever the layout of a text, the calls of `GetToken` and of `PeekToken` give its tokens in order, and then the end
of file, for any sequence of calls that does not look two places beyond what was seen. -/
theorem c52_tokens (L : Language) (hL : L.ok = true) (hnl : '\n' ∈ L.blanks) (num : List Char → Bool) (ps : List Piece)
    (hps : ok L ps = true) (cs : List Call) (hcs : stepwise 0 cs = true) :
    (calls L.grammar num (.new (text ps)) cs).map (·.map fun t => (t.kind, t.data)) =
      (answers (tokens num ps) cs).map some := by
  have := good_view cs _ _ (calls_good (conv := num) hL hnl cs (.new (text ps)) _ 0 (inv_new ps hps) (Nat.zero_le _) hcs)
  rw [actual_view] at this
  exact this

/-- The line of a token is the number of ends of line before it, plus one, if no comment and no string goes over more
than one line, and no string has an end of line written as `\n`. -/
theorem c52_lines_partial (L : Language) (hL : L.ok = true) (hnl : '\n' ∈ L.blanks) (num : List Char → Bool)
    (ps : List Piece) (hps : ok L ps = true) (h1 : oneLined ps = true) :
    calls L.grammar num (.new (text ps)) (List.replicate (tokens num ps).length .get) =
      (tokensAt num [] ps).map fun x => some ⟨x.1, x.2.1, x.2.2⟩ := by
  have hlen : (tokens num ps).length = (actual num 1 ps).length := by
    rw [← actual_view num ps 1, List.length_map]
  rw [hlen]
  have := good_get _ _ (calls_good (conv := num) hL hnl _ (.new (text ps)) _ 0 (inv_new ps hps) (Nat.zero_le _)
    (stepwise_get 0 (actual num 1 ps).length))
  rw [this]
  have e := actual_lines hL hnl num ps [] hps h1
  simp only [List.count_nil, Nat.zero_add] at e
  rw [e, List.map_map]
  rfl

/-- The languages of the library. -/
example : Spec.Lexer.standard.ok = true ∧ '\n' ∈ Spec.Lexer.standard.blanks ∧ Spec.Lexer.json.ok = true ∧
    '\n' ∈ Spec.Lexer.json.blanks ∧ Spec.Lexer.standard.grammar = Verif.Lexer.standard ∧
    Spec.Lexer.json.grammar = Verif.Lexer.json := ⟨by decide, by decide, by decide, by decide, rfl, rfl⟩

/-- `a/b=-3// c`, a new line, `{/*d*/"e\"f"}`. -/
def sampleText : List Piece :=
  [.bare "a/b".toList, .sign '=', .bare "-3".toList, .lineComment " c".toList, .sign '{', .blockComment ['d'],
    .quoted [.raw 'e', .esc '"', .raw 'f'], .sign '}']

example : ok Spec.Lexer.standard sampleText = true ∧ oneLined sampleText = true ∧
    text sampleText = "a/b=-3// c\n{/*d*/\"e\\\"f\"}".toList ∧
    tokensAt (fun _ => true) [] sampleText = [(.string, "a/b".toList, 1), (.terminal, ['='], 1), (.number, "-3".toList, 1),
      (.terminal, ['{'], 2), (.string, "e\"f".toList, 2), (.terminal, ['}'], 2)] := by decide +kernel

example : stepwise 0 [.peek 0, .peek 1, .peek 1, .get, .peek 1, .get, .get] = true := by decide

/-- The texts and lines of the tokens that `GetToken` gives. -/
def gets (n : Nat) (t : String) : List (Option (Kind × String × Nat)) :=
  (calls standard (fun _ => true) (.new t.toList) (List.replicate n .get)).map
    (·.map fun t => (t.kind, String.ofList t.data, t.line))

/-- After an empty comment the next line is lost. -/
theorem c52_empty_comment_fails : gets 5 "a = //\n1 b = 2\n3 c" =
    [some (.string, "a", 1), some (.terminal, "=", 1), some (.number, "3", 2), some (.string, "c", 2),
      some (.eof, "", 2)] := by decide +kernel

/-- A slash at the end of the text is lost. -/
theorem c52_last_slash_fails : gets 3 "a b/" = [some (.string, "a", 1), some (.string, "b", 1), some (.eof, "", 1)] ∧
    gets 2 "a /" = [some (.string, "a", 1), some (.eof, "", 1)] := by decide +kernel

/-- A backslash alone is taken for the end of the file. -/
theorem c52_backslash_fails : gets 3 "a \\ b" = [some (.string, "a", 1), some (.eof, "", 1), some (.string, "b", 1)] := by
  decide +kernel

/-- A string that is not closed is a string. -/
theorem c52_open_string_fails : gets 2 "\"a b" = [some (.string, "a b", 1), some (.eof, "", 1)] := by decide +kernel

/-- An end of line written as `\n` in a string counts as a line, and so does a comment before the token it follows. -/
theorem c52_lines_fail : gets 2 "\"a\\nb\" c" = [some (.string, "a\nb", 2), some (.string, "c", 2)] ∧
    gets 1 "a/*\n*/" = [some (.string, "a", 2)] := by decide +kernel

/-- A first `PeekToken(1)` answers the end of the file, and puts it between the first token and the second. -/
theorem c52_peek_fails : (calls standard (fun _ => true) (.new "a b".toList) [.peek 1, .get, .get, .get]).map
    (·.map fun t => (t.kind, t.data)) =
    [some (.eof, []), some (.string, ['a']), some (.eof, []), some (.string, ['b'])] := by decide +kernel

end Verif.Lexer

namespace Verif.Config
open Verif.Spec.Lexer (Piece text)
open Verif.Spec.ConfigText
open Verif.Spec.ConfigDoc (Stmts Word)
open Verif.Parser (stackCap)
open Verif.ConfigDb (Op)
open Verif.Spec.ConfigDb (allAllowed)

variable {B : Type} (conv : Conv B) (num : List Char → Bool)

/-- A text, with any layout, that says a document whose names are simple and distinct in each block and whose values
exist, is parsed into the tree that the document describes. -/
theorem c52_text_to_tree (d : Stmts) (hd : d.ok conv = true) (depth : d.depth ≤ 249) (ps : List Piece)
    (hps : Says num ps d.words) :
    ∃ N, ∀ fuel, N ≤ fuel → ∃ c, parseText conv num stackCap fuel ConfigDb.init (text ps) = .ok (true, c) ∧
      ∀ calls, allAllowed ⟨d.tree conv, []⟩ calls = true →
        (ConfigDb.run c.db calls).map (·.1) = some (Spec.ConfigDb.run ⟨d.tree conv, []⟩ calls).1 := by
  obtain ⟨N, h⟩ := c51_tree conv d hd depth
  refine ⟨N, fun fuel hf => ?_⟩
  rw [text_words conv stackCap fuel ConfigDb.init ps d.words hps]
  exact h fuel hf

/-- A text that says words that are not a document is refused, whatever the database. -/
theorem c52_text_refused (s : ConfigDb.St (Leaf B)) (ws : List Word) (hb : .bar ∉ ws)
    (hn : Spec.ConfigDoc.Nest 249 ws) (h0 : ws ≠ []) (hd : ∀ d : Stmts, ws ≠ d.words) (ps : List Piece)
    (hps : Says num ps ws) :
    ∃ N, ∀ fuel, N ≤ fuel → (∃ c, parseText conv num stackCap fuel s (text ps) = .ok (false, c)) ∨
      parseText conv num stackCap fuel s (text ps) = .crash := by
  obtain ⟨N, h⟩ := c51_refuse conv s ws hb hn h0 hd
  refine ⟨N, fun fuel hf => ?_⟩
  rw [text_words conv stackCap fuel s ps ws hps]
  exact h fuel hf

/-- Every document whose strings have no zeros and whose numbers are numbers can be written, and what is written says
the document. -/
theorem c52_written (ws : List Word) (h : ∀ w ∈ ws, writable num w = true) : Says num (write ws) ws := write_says ws h

example : (∀ w ∈ sample.words, writable (fun _ => true) w = true) ∧
    text (write sample.words) =
      "\"a\" = 1 \"B\" = { \"c\" = ( \"uint8\" ) { 1 2 } \"D\" = { \"e\" = { { \"x\" } { \"y\" } } } } ".toList := by
  decide +kernel

/-- The text of the sample, with another layout, says the same. -/
example : Says (fun _ => true) [.bare ['a'], .sign '=', .bare ['1'], .blank '\n', .bare ['B'], .sign '=', .sign '{',
    .lineComment " block".toList, .bare ['c'], .blank ' ', .sign '=', .sign '(', .bare "uint8".toList, .sign ')', .sign '{',
    .bare ['1'], .blank ',', .bare ['2'], .sign '}', .quoted [.raw 'D'], .sign '=', .sign '{', .bare ['e'], .sign '=',
    .sign '{', .sign '{', .quoted [.raw 'x'], .sign '}', .sign '{', .bare ['y'], .sign '}', .sign '}', .sign '}', .sign '}']
    sample.words := ⟨by decide +kernel, by decide +kernel⟩

end Verif.Config
