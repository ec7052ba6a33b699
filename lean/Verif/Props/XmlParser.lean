import Verif.Proof.XmlParser
import Verif.Proof.XmlPrint
import Verif.Model.JsonPrint
/-! ## C100: reading a configuration in the XML language -/
namespace Verif.Xml
open Verif.Parser Verif.Config Verif.Spec.XmlDoc
open Verif.Spec.ConfigDoc (Lit Data Stmt Stmts Added)
open Verif.ConfigDb (Op Out St Name)
open Verif.Spec.ConfigDb (Db Item allAllowed)

variable {B : Type} (conv : Conv B)

/-- Any document with simple block names, nested up to 99 levels, parsed into a database with any history, is accepted
exactly when all its statements can be carried out one after the other; the database then behaves, in all calls that
follow, as the tree that results, with the root as current node. The closing names play no part in it. -/
theorem c100_parse (before : List (Op (Leaf B))) (hb : allAllowed Spec.ConfigDb.empty before = true) (s : St (Leaf B))
    (hs : (ConfigDb.run ConfigDb.init before).map (·.2) = some s) (d : XStmts) (hd : d.plain.blockNames = true)
    (depth : d.plain.depth ≤ 99) :
    ∃ N, ∀ fuel, N ≤ fuel → ∃ c,
      match d.plain.apply conv (Spec.ConfigDb.run Spec.ConfigDb.empty before).2 with
      | some db => parseXml conv stackCap fuel s (d.words.map xtok) = .ok (true, c) ∧
          ∀ calls, allAllowed { db with cur := [] } calls = true →
            (ConfigDb.run c.db calls).map (·.1) = some (Spec.ConfigDb.run { db with cur := [] } calls).1
      | none => parseXml conv stackCap fuel s (d.words.map xtok) = .ok (false, c) := by
  obtain ⟨N, h⟩ := parse_doc (conv := conv) (cap := stackCap) d s _ hd ⟨before, hb, hs, rfl⟩ (by unfold stackCap; omega)
  refine ⟨N, fun fuel hf => ?_⟩
  obtain ⟨c, hc⟩ := h fuel hf
  refine ⟨c, ?_⟩
  cases e : d.plain.apply conv (Spec.ConfigDb.run Spec.ConfigDb.empty before).2 with
  | none => rw [e] at hc; exact hc
  | some db =>
    rw [e] at hc
    refine ⟨hc.1, fun calls ha => ?_⟩
    obtain ⟨s', h1, _⟩ := hist_run hc.2 calls ha
    rw [h1]
    rfl

/-- A document whose values exist and whose names are simple and distinct in each block, written with the right closing
names and parsed into a new database, is accepted, and the database is the tree that the document describes. -/
theorem c100_tree (d : Stmts) (hd : d.ok conv = true) (depth : d.depth ≤ 99) :
    ∃ N, ∀ fuel, N ≤ fuel → ∃ c, parseXml conv stackCap fuel ConfigDb.init ((closeAll d).words.map xtok) = .ok (true, c) ∧
      ∀ calls, allAllowed ⟨d.tree conv, []⟩ calls = true →
        (ConfigDb.run c.db calls).map (·.1) = some (Spec.ConfigDb.run ⟨d.tree conv, []⟩ calls).1 := by
  obtain ⟨N, h⟩ := c100_parse conv [] rfl ConfigDb.init rfl (closeAll d)
    (by rw [plain_closeAll]; exact block_names_of_ok d hd) (by rw [plain_closeAll]; exact depth)
  refine ⟨N, fun fuel hf => ?_⟩
  obtain ⟨c, hc⟩ := h fuel hf
  rw [plain_closeAll] at hc
  have e : d.apply conv (Spec.ConfigDb.run Spec.ConfigDb.empty []).2 = some ⟨d.tree conv, []⟩ := apply_empty d hd
  rw [e] at hc
  exact ⟨c, hc⟩

/-- Every document can be written with the right closing names. -/
theorem c100_written (d : Stmts) : (closeAll d).plain = d ∧ (closeAll d).matched = true :=
  ⟨plain_closeAll d, matched_closeAll d⟩

/-- Parsed into a database that has none of the names, at the current node, the document is added at the end, and
nothing else changes. -/
theorem c100_added (before : List (Op (Leaf B))) (hb : allAllowed Spec.ConfigDb.empty before = true) (s : St (Leaf B))
    (hs : (ConfigDb.run ConfigDb.init before).map (·.2) = some s) (item : List Name → Option (Item (Leaf B)))
    (p : List Name) (hdb : (Spec.ConfigDb.run Spec.ConfigDb.empty before).2 = ⟨item, p⟩) (ch : List Name)
    (hch : item p = some (.node ch)) (d : Stmts) (hd : d.ok conv = true) (depth : d.depth ≤ 99)
    (hnew : ∀ n ∈ d.names, n ∉ ch ∧ ∀ r, item (p ++ n :: r) = none) :
    ∃ item', Added conv item p d item' ∧ ∃ N, ∀ fuel, N ≤ fuel → ∃ c,
      parseXml conv stackCap fuel s ((closeAll d).words.map xtok) = .ok (true, c) ∧
      ∀ calls, allAllowed ⟨item', []⟩ calls = true →
        (ConfigDb.run c.db calls).map (·.1) = some (Spec.ConfigDb.run ⟨item', []⟩ calls).1 := by
  obtain ⟨item', h1, h2⟩ := apply_stmts (conv := conv) d ⟨item, p⟩ ch hd hch (fun n hn => (hnew n hn).1)
    (fun n hn => (hnew n hn).2)
  refine ⟨item', h2, ?_⟩
  obtain ⟨N, h⟩ := c100_parse conv before hb s hs (closeAll d) (by rw [plain_closeAll]; exact block_names_of_ok d hd)
    (by rw [plain_closeAll]; exact depth)
  refine ⟨N, fun fuel hf => ?_⟩
  obtain ⟨c, hc⟩ := h fuel hf
  rw [plain_closeAll, hdb, h1] at hc
  exact ⟨c, hc⟩

/-- A document with a value that does not exist (rows of different lengths, strings mixed with numbers, a text that is
no number of the type, a type of which there are no values) is refused. -/
theorem c100_bad_value (n : Name) (cast : Option (List Char)) (v : Data) (h : v.value conv cast = none) :
    ∃ N, ∀ fuel, N ≤ fuel → ∃ c, parseXml conv stackCap fuel ConfigDb.init
      ((closeAll (.one (.leaf n cast v))).words.map xtok) = .ok (false, c) := by
  obtain ⟨N, g⟩ := c100_parse conv [] rfl ConfigDb.init rfl (closeAll (.one (.leaf n cast v))) rfl
    (by show 0 ≤ 99; decide)
  refine ⟨N, fun fuel hf => ?_⟩
  obtain ⟨c, hc⟩ := g fuel hf
  refine ⟨c, ?_⟩
  rw [plain_closeAll, Stmts.apply, Stmt.apply, h] at hc
  exact hc

/-- **C100 (disagreement).** The closing names are not compared with the opening ones: whatever they are, the document is
accepted, and it is read as if they were right. -/
theorem c100_closing_fails (d : XStmts) (hd : d.plain.ok conv = true) (depth : d.plain.depth ≤ 99) :
    ∃ N, ∀ fuel, N ≤ fuel → ∃ c, parseXml conv stackCap fuel ConfigDb.init (d.words.map xtok) = .ok (true, c) ∧
      ∀ calls, allAllowed ⟨d.plain.tree conv, []⟩ calls = true →
        (ConfigDb.run c.db calls).map (·.1) = some (Spec.ConfigDb.run ⟨d.plain.tree conv, []⟩ calls).1 := by
  obtain ⟨N, h⟩ := c100_parse conv [] rfl ConfigDb.init rfl d (block_names_of_ok d.plain hd) depth
  refine ⟨N, fun fuel hf => ?_⟩
  obtain ⟨c, hc⟩ := h fuel hf
  have e : d.plain.apply conv (Spec.ConfigDb.run Spec.ConfigDb.empty []).2 = some ⟨d.plain.tree conv, []⟩ :=
    apply_empty d.plain hd
  rw [e] at hc
  exact ⟨c, hc⟩

/-! ### From characters -/

/-- A text that says some words, with any layout and comments, is parsed as these words, into any database. -/
theorem c100_text (num : List Char → Bool) (fuel : Nat) (db : St (Leaf B)) (ps : List Spec.XmlText.XPiece) (ws : List XWord)
    (h : Spec.XmlText.Says num ps ws) :
    parseXmlText conv num stackCap fuel db (Spec.XmlText.text ps) = parseXml conv stackCap fuel db (ws.map xtok) :=
  text_words conv stackCap fuel db ps ws h

/-- From characters to the tree: any text that says a document is accepted, and the database is the tree that the document
describes. -/
theorem c100_text_to_tree (num : List Char → Bool) (d : Stmts) (hd : d.ok conv = true) (depth : d.depth ≤ 99)
    (ps : List Spec.XmlText.XPiece) (h : Spec.XmlText.Says num ps (closeAll d).words) :
    ∃ N, ∀ fuel, N ≤ fuel → ∃ c, parseXmlText conv num stackCap fuel ConfigDb.init (Spec.XmlText.text ps) = .ok (true, c) ∧
      ∀ calls, allAllowed ⟨d.tree conv, []⟩ calls = true →
        (ConfigDb.run c.db calls).map (·.1) = some (Spec.ConfigDb.run ⟨d.tree conv, []⟩ calls).1 := by
  obtain ⟨N, g⟩ := c100_tree conv d hd depth
  refine ⟨N, fun fuel hf => ?_⟩
  rw [c100_text conv num fuel ConfigDb.init ps _ h]
  exact g fuel hf

/-- Words whose strings have no zero character and whose numbers are numbers can be written. -/
theorem c100_text_written (num : List Char → Bool) (ws : List XWord) (h : ∀ w ∈ ws, Spec.XmlText.writable num w = true) :
    Spec.XmlText.Says num (Spec.XmlText.write ws) ws := write_says ws h

/-! ### Printed -/

/-- What `PrintStructuredDataI` writes of a database with any history, without collapsing, and with any printer that can
print the values: the beginning, the elements of the tree below the current node with the separators between them, and the
end. The database still behaves as before. -/
theorem c100_print (p : Json.Printer B) (before : List (Op (Leaf B))) (hb : allAllowed Spec.ConfigDb.empty before = true) (s : St (Leaf B))
    (hs : (ConfigDb.run ConfigDb.init before).map (·.2) = some s) (F : Spec.ConfigDb.Forest (Leaf B))
    (hF : Spec.ConfigDb.Below (Spec.ConfigDb.run Spec.ConfigDb.empty before).2.item
      (Spec.ConfigDb.run Spec.ConfigDb.empty before).2.cur F) (hd : F.distinct = true)
    (hl : F.allLeaves (fun n _ => Spec.ConfigDoc.nameOk n) = true) (hn : F.allNodes Spec.ConfigDoc.nameOk = true)
    (hp : Spec.StreamData.printable p F = true) :
    ∃ M, ∀ fuel, M ≤ fuel → ∃ s',
      Json.printStructured p false fuel s = some (true, p.start ++ Spec.XmlPrint.written p [] F ++ p.stop, s') ∧
      ∀ calls, allAllowed (Spec.ConfigDb.run Spec.ConfigDb.empty before).2 calls = true →
        (ConfigDb.run s' calls).map (·.1) =
          some (Spec.ConfigDb.run (Spec.ConfigDb.run Spec.ConfigDb.empty before).2 calls).1 := by
  refine ⟨F.size + 1, fun fuel hf => ?_⟩
  obtain ⟨l, h1, h2, h3, h4⟩ := print_plain p F fuel 0 (Json.Loop.new s) _ [] ⟨before, hb, hs, rfl⟩ (Spec.ConfigDb.part_of_below hF) hd hp hl hn
    rfl rfl rfl hf
  refine ⟨l.db, ?_, fun calls ha => ?_⟩
  · rw [Json.printStructured, h1]
    simp only [Option.map_some, h2, h3, if_true]
    simp [Json.Loop.new]
  · obtain ⟨s'', e, _⟩ := hist_run h4 calls ha
    rw [e]
    rfl

/-- A database with any history, whose values below the current node are single strings and numbers, whose names can be
names of tags, and which has no empty node there, is printed by the XML printer; and the text, parsed into a new database, is
accepted and gives the same tree, with texts in the place of the numbers. -/
theorem c100_round_trip_partial (pr : Nat → B → List Char) (num : List Char → Bool) (before : List (Op (Leaf B)))
    (hb : allAllowed Spec.ConfigDb.empty before = true) (s : St (Leaf B))
    (hs : (ConfigDb.run ConfigDb.init before).map (·.2) = some s) (F : Spec.ConfigDb.Forest (Leaf B))
    (hF : Spec.ConfigDb.Below (Spec.ConfigDb.run Spec.ConfigDb.empty before).2.item
      (Spec.ConfigDb.run Spec.ConfigDb.empty before).2.cur F) (hd : F.distinct = true)
    (hg : Spec.XmlPrint.good pr num F = true) (hf : F.full = true) (hdepth : Spec.XmlPrint.depth F ≤ 99) :
    ∃ t, (∃ M, ∀ fuel, M ≤ fuel → ∃ s', Json.printStructured (Json.xmlPrinter pr) false fuel s = some (true, t, s')) ∧
      ∃ N, ∀ fuel, N ≤ fuel → ∃ c, parseXmlText conv num stackCap fuel ConfigDb.init t = .ok (true, c) ∧
        ∀ calls, allAllowed ⟨(F.map (Spec.ConfigPrint.asText pr)).item, []⟩ calls = true →
          (ConfigDb.run c.db calls).map (·.1) =
            some (Spec.ConfigDb.run ⟨(F.map (Spec.ConfigPrint.asText pr)).item, []⟩ calls).1 := by
  simp only [Spec.XmlPrint.good, Bool.and_eq_true] at hg
  obtain ⟨hl, hn⟩ := hg
  have hle : ∀ (G : Spec.ConfigDb.Forest (Leaf B)) (P Q : Name → Leaf B → Bool), (∀ n v, P n v = true → Q n v = true) →
      G.allLeaves P = true → G.allLeaves Q = true := by
    intro G P Q h
    induction G with
    | nil => exact fun _ => rfl
    | leaf n v r ih =>
      simp only [Spec.ConfigDb.Forest.allLeaves, Bool.and_eq_true]
      exact fun g => ⟨h n v g.1, ih g.2⟩
    | node n S r ihS ih =>
      simp only [Spec.ConfigDb.Forest.allLeaves, Bool.and_eq_true]
      exact fun g => ⟨ihS g.1, ih g.2⟩
  have hne : ∀ (G : Spec.ConfigDb.Forest (Leaf B)), G.allNodes (Spec.XmlPrint.goodName num) = true →
      G.allNodes Spec.ConfigDoc.nameOk = true := by
    intro G
    induction G with
    | nil => exact fun _ => rfl
    | leaf n v r ih => simpa only [Spec.ConfigDb.Forest.allNodes] using ih
    | node n S r ihS ih =>
      simp only [Spec.ConfigDb.Forest.allNodes, Bool.and_eq_true]
      exact fun g => ⟨⟨good_nameOk g.1.1, ihS g.1.2⟩, ih g.2⟩
  refine ⟨Spec.XmlText.text (xpieces pr F), ?_, ?_⟩
  · obtain ⟨M, h⟩ := c100_print (Json.xmlPrinter pr) before hb s hs F hF hd
      (hle F _ _ (fun n v g => by simp only [Bool.and_eq_true] at g; exact good_nameOk g.1) hl) (hne F hn)
      (hle F _ _ (fun n v g => by
        simp only [Bool.and_eq_true] at g
        rw [element_shown g.2]; rfl) hl)
    refine ⟨M, fun fuel hfu => ?_⟩
    obtain ⟨s', h1, _⟩ := h fuel hfu
    refine ⟨s', ?_⟩
    rw [h1, xtext hl]
    simp [Json.xmlPrinter]
  · have h3 := c100_text_to_tree conv num (doc pr F) (doc_ok conv hl hn hf hd) (Nat.le_trans (doc_depth hf) hdepth) (xpieces pr F)
      ⟨by simpa using xok hl hn (q := []) rfl, xsays hl hn hf⟩
    rw [doc_tree conv hl hf] at h3
    exact h3

/-! ### Concrete cases -/

set_option synthInstance.maxSize 2000

/-- Conversion for the examples: the text itself. -/
def convId : Conv (List Char) := fun _ s => some s

/-- What a parse of a text gives, and what is read from the database afterwards. -/
def look (t : String) (calls : List (Op (Leaf (List Char)))) :
    Option (Bool × Option (List (Out (Leaf (List Char))))) :=
  match parseXmlText convId (fun s => s.all Char.isDigit) stackCap 3000 ConfigDb.init t.toList with
  | .ok (b, c) => some (b, (ConfigDb.run c.db calls).map (·.1))
  | _ => none

/-- `<a>1</a><B><c>(uint8){1 2}</c><D><e>{{"x"}{"y"}}</e></D></B>`. -/
def sample : Stmts :=
  .more (.leaf ['a'] none (.scalar ⟨true, ['1']⟩))
  (.one (.block ['B'] (.more (.leaf ['c'] (some "uint8".toList) (.vector ⟨true, ['1']⟩ [⟨true, ['2']⟩]))
    (.one (.block ['D'] (.one (.leaf ['e'] none (.matrix (⟨false, ['x']⟩, []) [(⟨false, ['y']⟩, [])]))))))))

/-- The hypotheses of `c100_tree` hold for it. -/
example : sample.ok convId = true ∧ sample.depth ≤ 99 ∧
    sample.tree convId [['B'], ['c']] = some (.leaf ⟨5, 1, 2, 1, [.num ['1'], .num ['2']]⟩) := by decide +kernel

/-- From the text, with a comment. -/
example : look "<a>1</a><B> <c>(uint8){1 2}</c><!-- here --><D><e>{{\"x\"}{\"y\"}}</e></D></B>"
    [.moveAbsolute "B.D".toList, .read ['e']] =
    some (true, some [.flag true, .value (some ⟨0, 2, 1, 2, [.text ['x'], .text ['y']]⟩)]) := by decide +kernel

/-- The hypotheses of `c100_text_to_tree` hold for a text with a comment and commas. -/
example : Spec.XmlText.Says (fun s => s.all Char.isDigit)
    [.comment " it's < a -- comment ".toList, .sign '<', .bare ['a'], .sign '>', .blank ',', .bare ['1'], .comment [], .sign '<', .sign '/',
      .bare ['a'], .blank '\n', .sign '>'] (closeAll (.one (.leaf ['a'] none (.scalar ⟨true, ['1']⟩)))).words ∧
    ∀ w ∈ (closeAll sample).words, Spec.XmlText.writable (fun s => s.all Char.isDigit) w = true := by
  refine ⟨⟨?_, ?_⟩, ?_⟩ <;> decide +kernel

/-- **C100 (disagreement).** A comment right after `<` is not read as a comment: the document is refused, although the same
with the comment one place before, or after the name, is accepted. -/
theorem c100_comment_fails : (look "<<!-- c -->a>1</a>" []).map (·.1) = some false ∧
    (look "<!-- c --><a>1</a>" []).map (·.1) = some true ∧ (look "<a<!-- c -->>1</a>" []).map (·.1) = some true := by
  decide +kernel

/-- The wrong closing names of `c100_closing_fails`, from the text. -/
example : look "<A><b>1</c></d>" [.moveAbsolute ['A'], .read ['b']] =
    some (true, some [.flag true, .value (some ⟨0, 0, 1, 1, [.text ['1']]⟩)]) := by decide +kernel

/-- `k` blocks, one in the other. -/
def nested : Nat → XStmts
  | 0 => .one (.leaf ['x'] none (.scalar ⟨true, ['1']⟩) ['x'])
  | k + 1 => .one (.block ['a'] (nested k) ['a'])

/-- Whether some tokens are accepted. -/
def accepted (ts : List Tok) : Option Bool :=
  match parseXml convId stackCap 6000 ConfigDb.init ts with
  | .ok (b, _) => some b
  | _ => none

/-- **C100 (disagreement).** With 100 levels the stack of symbols is full: the document is refused. -/
theorem c100_depth_fails : accepted ((nested 99).words.map xtok) = some true ∧
    accepted ((nested 100).words.map xtok) = some false := by decide +kernel

/-- **C100 (disagreement).** What is usual in XML is refused: a declaration, an attribute, an empty element, a text of two
words, a text with a slash. -/
theorem c100_usual_fails : (look "<?xml version=\"1.0\"?><a>1</a>" []).map (·.1) = some false ∧
    (look "<A id=\"1\"><b>2</b></A>" []).map (·.1) = some false ∧ (look "<A></A>" []).map (·.1) = some false ∧
    (look "<a>two words</a>" []).map (·.1) = some false ∧ (look "<a>/tmp/x</a>" []).map (·.1) = some false := by
  decide +kernel

/-- What is printed of a database with one value. -/
def printed (v : Leaf (List Char)) : Option (Bool × String) :=
  match ConfigDb.run ConfigDb.init [.write ['a'] v] with
  | none => none
  | some (_, s) => (Json.printStructured (Json.xmlPrinter fun _ t => t) false 20 s).map fun r => (r.1, String.ofList r.2.1)

/-- The hypotheses of `c100_round_trip_partial` hold for a tree of three levels. -/
example : Spec.XmlPrint.good (fun _ t => t) (fun s => s.all Char.isDigit)
    (.leaf ['a'] (⟨0, 0, 1, 1, [.text ['x', ' ', 'y']]⟩ : Leaf (List Char)) (.node "+B".toList (.node ['c'] (.leaf ['d'] ⟨5, 0, 1, 1, [.num ['1', '2']]⟩ .nil)
      .nil) .nil)) = true ∧ Spec.XmlPrint.written (Json.xmlPrinter fun _ t => t) []
    (.leaf ['a'] (⟨0, 0, 1, 1, [.text ['x', ' ', 'y']]⟩ : Leaf (List Char)) (.node "+B".toList (.node ['c'] (.leaf ['d'] ⟨5, 0, 1, 1, [.num ['1', '2']]⟩ .nil)
      .nil) .nil)) = "<a>\"x y\"</a><+B><c><d>12</d></c></+B>".toList := by decide +kernel

/-- A value with one element is printed as it can be read. -/
example : printed ⟨0, 0, 1, 1, [.text ['x', ' ', 'y']]⟩ = some (true, "<a>\"x y\"</a>") ∧
    look "<a>\"x y\"</a>" [.read ['a']] = some (true, some [.value (some ⟨0, 0, 1, 1, [.text ['x', ' ', 'y']]⟩)]) := by
  decide +kernel

/-- **C100 (disagreement).** A vector is printed between brackets, which the parser does not know: what is printed is
refused. -/
theorem c100_printed_fails : printed ⟨5, 1, 2, 1, [.num ['1'], .num ['2']]⟩ = some (true, "<a>[ 1, 2 ] </a>") ∧
    (look "<a>[ 1, 2 ] </a>" []).map (·.1) = some false := by decide +kernel

end Verif.Xml
