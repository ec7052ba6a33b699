import Verif.Proof.JsonParser3
import Verif.Proof.JsonText
import Verif.Props.ConfigParser
/-! ## C63: parsing a configuration in the JSON language -/
namespace Verif.Json
open Verif.Parser Verif.Config Verif.Spec.ConfigDoc Verif.Spec.JsonDoc
open Verif.ConfigDb (Op Out St Name)
open Verif.Spec.ConfigDb (Db Item allAllowed)
open Verif.Spec.Lexer (Piece text)

variable {B : Type} (conv : Conv B)

/-- Any document with simple names of blocks and lists, nested up to 249 levels, parsed into a database with any
history, is accepted exactly when all the statements of the configuration it stands for can be carried out one after the
other; the database then behaves, in all calls that follow, as the tree that results, with the root as current node. -/
theorem c63_parse (before : List (Op (Leaf B))) (hb : allAllowed Spec.ConfigDb.empty before = true) (s : St (Leaf B))
    (hs : (ConfigDb.run ConfigDb.init before).map (·.2) = some s) (d : JStmts) (hl : d.listsOk false = true)
    (hd : d.plain.blockNames = true) (depth : d.depth ≤ 249) :
    ∃ N, ∀ fuel, N ≤ fuel → ∃ u,
      match d.plain.apply conv (Spec.ConfigDb.run Spec.ConfigDb.empty before).2 with
      | some db => parseJson conv stackCap fuel s (d.words.map jtok) = .ok (true, u) ∧
          ∀ calls, allAllowed { db with cur := [] } calls = true →
            (ConfigDb.run u.cfg.db calls).map (·.1) = some (Spec.ConfigDb.run { db with cur := [] } calls).1
      | none => parseJson conv stackCap fuel s (d.words.map jtok) = .ok (false, u) := by
  obtain ⟨N, h⟩ := parse_doc (conv := conv) (cap := stackCap) d s _ hl hd ⟨before, hb, hs, rfl⟩
    (by unfold stackCap; omega)
  refine ⟨N, fun fuel hf => ?_⟩
  obtain ⟨c, hc⟩ := h fuel hf
  refine ⟨c, ?_⟩
  cases e : d.plain.apply conv (Spec.ConfigDb.run Spec.ConfigDb.empty before).2 with
  | none => rw [e] at hc; exact hc
  | some db =>
    rw [e] at hc
    refine ⟨hc.1, fun calls ha => ?_⟩
    obtain ⟨s', h1, _⟩ := hist_run hc.2 calls ha
    rw [h1]
    rfl

/-- A document that stands for a configuration whose values exist and whose names are simple and distinct in each block,
parsed into a new database, is accepted, and the database is the tree that this configuration describes. -/
theorem c63_tree (d : JStmts) (hl : d.listsOk false = true) (hd : d.plain.ok conv = true) (depth : d.depth ≤ 249) :
    ∃ N, ∀ fuel, N ≤ fuel → ∃ u, parseJson conv stackCap fuel ConfigDb.init (d.words.map jtok) = .ok (true, u) ∧
      ∀ calls, allAllowed ⟨d.plain.tree conv, []⟩ calls = true →
        (ConfigDb.run u.cfg.db calls).map (·.1) = some (Spec.ConfigDb.run ⟨d.plain.tree conv, []⟩ calls).1 := by
  obtain ⟨N, h⟩ := c63_parse conv [] rfl ConfigDb.init rfl d hl (block_names_of_ok d.plain hd) depth
  refine ⟨N, fun fuel hf => ?_⟩
  obtain ⟨u, hu⟩ := h fuel hf
  have e : d.plain.apply conv (Spec.ConfigDb.run Spec.ConfigDb.empty []).2 = some ⟨d.plain.tree conv, []⟩ :=
    apply_empty d.plain hd
  rw [e] at hu
  exact ⟨u, hu⟩

/-- A text in the JSON language, with any layout and commas anywhere, that says such a document, is parsed into that
tree. -/
theorem c63_text_to_tree (num : List Char → Bool) (d : JStmts) (hl : d.listsOk false = true)
    (hd : d.plain.ok conv = true) (depth : d.depth ≤ 249) (ps : List Piece) (hps : Spec.JsonText.Says num ps d.words) :
    ∃ N, ∀ fuel, N ≤ fuel → ∃ u, parseJsonText conv num stackCap fuel ConfigDb.init (text ps) = .ok (true, u) ∧
      ∀ calls, allAllowed ⟨d.plain.tree conv, []⟩ calls = true →
        (ConfigDb.run u.cfg.db calls).map (·.1) = some (Spec.ConfigDb.run ⟨d.plain.tree conv, []⟩ calls).1 := by
  obtain ⟨N, h⟩ := c63_tree conv d hl hd depth
  refine ⟨N, fun fuel hf => ?_⟩
  rw [text_words conv stackCap fuel ConfigDb.init ps d.words hps]
  exact h fuel hf

/-- A document and the configuration it stands for, written in the standard language, are accepted or refused
together by the two parsers, and the two databases then answer alike. -/
theorem c63_same_as_standard (before : List (Op (Leaf B))) (hb : allAllowed Spec.ConfigDb.empty before = true)
    (s : St (Leaf B)) (hs : (ConfigDb.run ConfigDb.init before).map (·.2) = some s) (d : JStmts)
    (hl : d.listsOk false = true) (hd : d.plain.blockNames = true) (depth : d.depth ≤ 249) :
    ∃ N, ∀ fuel, N ≤ fuel → ∃ ok u c,
      parseJson conv stackCap fuel s (d.words.map jtok) = .ok (ok, u) ∧
      parseStd conv stackCap fuel s (d.plain.words.map tok) = .ok (ok, c) ∧
      (ok = true → ∃ db : Db (Leaf B), ∀ calls, allAllowed db calls = true →
        (ConfigDb.run u.cfg.db calls).map (·.1) = (ConfigDb.run c.db calls).map (·.1) ∧
        (ConfigDb.run c.db calls).map (·.1) = some (Spec.ConfigDb.run db calls).1) := by
  obtain ⟨N, h⟩ := c63_parse conv before hb s hs d hl hd depth
  obtain ⟨N', h'⟩ := c51_parse conv before hb s hs d.plain hd (Nat.le_trans (plain_depth d) depth)
  refine ⟨N + N', fun fuel hf => ?_⟩
  obtain ⟨u, hu⟩ := h fuel (by omega)
  obtain ⟨c, hc⟩ := h' fuel (by omega)
  cases e : d.plain.apply conv (Spec.ConfigDb.run Spec.ConfigDb.empty before).2 with
  | none =>
    rw [e] at hu hc
    exact ⟨false, u, c, hu, hc, by simp⟩
  | some db =>
    rw [e] at hu hc
    refine ⟨true, u, c, hu.1, hc.1, fun _ => ⟨{ db with cur := [] }, fun calls ha => ⟨?_, hc.2 calls ha⟩⟩⟩
    rw [hu.2 calls ha, hc.2 calls ha]

/-- Every document without type casts whose strings have no zeros and whose numbers are numbers can be written, and what
is written says the document. -/
theorem c63_written (num : List Char → Bool) (ws : List JWord)
    (h : ∀ w ∈ ws, Spec.JsonText.writable num w = true) : Spec.JsonText.Says num (Spec.JsonText.write ws) ws :=
  write_says ws h

/-- `{"a": 1, "B": [{"c": "x"}, {"D": {"e": [[1, 2], [3, 4]]}}]}`. -/
def sample : JStmts :=
  .one (.braces (.more (.leaf ['a'] none (.scalar ⟨true, ['1']⟩))
    (.one (.array ['B'] (.more (.one (.leaf ['c'] none (.scalar ⟨false, ['x']⟩)))
      (.one (.one (.block ['D'] (.one (.leaf ['e'] none
        (.matrix (⟨true, ['1']⟩, [⟨true, ['2']⟩]) [(⟨true, ['3']⟩, [⟨true, ['4']⟩])])))))))))))

example : sample.listsOk false = true ∧ sample.plain.blockNames = true ∧
    sample.plain.ok (fun _ _ => (none : Option Nat)) = true ∧ sample.depth ≤ 249 ∧
    sample.plain.names = ["a".toList, "B[0]".toList, "B[1]".toList] ∧
    sample.plain.tree (fun _ _ => (none : Option Nat)) ["B[1]".toList, ['D'], ['e']] =
      some (.leaf ⟨0, 2, 2, 2, [.text ['1'], .text ['2'], .text ['3'], .text ['4']]⟩) := by
  refine ⟨by decide +kernel, by decide +kernel, by decide +kernel, by decide +kernel,
    by decide +kernel, by decide +kernel⟩

/-- The text of the sample says it. -/
example : Spec.JsonText.Says (fun _ => true)
    [.sign '{', .quoted [.raw 'a'], .sign ':', .blank ' ', .bare ['1'], .blank ',', .blank '\n', .bare ['B'], .sign ':',
     .sign '[', .sign '{', .quoted [.raw 'c'], .sign ':', .bare ['x'], .sign '}', .blank ',', .sign '{',
     .quoted [.raw 'D'], .sign ':', .sign '{', .quoted [.raw 'e'], .sign ':', .sign '[', .sign '[', .bare ['1'],
     .blank ',', .bare ['2'], .sign ']', .blank ',', .sign '[', .bare ['3'], .blank ' ', .bare ['4'], .sign ']', .sign ']',
     .sign '}', .sign '}', .sign ']', .sign '}'] sample.words := ⟨by decide +kernel, by decide +kernel⟩

/-- The answer of the parser for a text and a new database. -/
def accepts (t : String) : Option Bool :=
  match parseJsonText (fun _ _ => (none : Option Nat)) (fun _ => true) stackCap 200 ConfigDb.init t.toList with
  | .ok r => some r.1
  | _ => none

/-- A document without the condition on names is refused: a list named "Idx" inside a list; without the list around it,
or with another name, it is accepted. -/
theorem c63_idx_fails : accepts "{\"A\": [{\"Idx\": [{\"x\": 1}]}]}" = some false ∧
    accepts "{\"A\": [{\"Idy\": [{\"x\": 1}]}]}" = some true ∧ accepts "{\"Idx\": [{\"x\": 1}]}" = some true := by
  decide +kernel

/-- Texts that are JSON are refused: empty objects and lists, lists of blocks and values, values alone. -/
theorem c63_json_refused_fails : accepts "{}" = some false ∧ accepts "{\"a\": {}}" = some false ∧
    accepts "{\"a\": []}" = some false ∧ accepts "{\"a\": [1, \"x\"]}" = some false ∧
    accepts "{\"a\": [{\"b\": 1}, 2]}" = some false ∧ accepts "{\"a\": [[[1]]]}" = some false ∧
    accepts "1" = some false := by
  decide +kernel

/-- Texts that are not JSON are accepted: without braces, without commas or quotes, with commas anywhere, the text with
nothing in it, and a repeated name. -/
theorem c63_not_json_fails : accepts "a: 1 b: x" = some true ∧ accepts "{a: [1 2],,, b: {c: 1}} {,d: 2}" = some true ∧
    accepts "" = some true ∧ accepts "{\"a\": 1, \"a\": 2}" = some true := by
  decide +kernel

/-- The cast of the grammar can never be written: no text says a document with a parenthesis. -/
theorem c63_cast_fails (num : List Char → Bool) (ps : List Piece) (ws : List JWord)
    (h : Spec.JsonText.Says num ps ws) : .lp ∉ ws := by
  intro hmem
  exact no_paren ps h.1 (Spec.JsonText.token .lp) (by rw [h.2]; exact List.mem_map_of_mem hmem) rfl

example : accepts "\"a\": (uint8) 3" = some false ∧ accepts "\"a\": 3" = some true := by decide +kernel

end Verif.Json
