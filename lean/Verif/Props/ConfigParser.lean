import Verif.Proof.ConfigParser4
/-! ## C51: parsing a configuration in the standard language -/
namespace Verif.Config
open Verif.Parser Verif.Spec.ConfigDoc
open Verif.ConfigDb (Op Out St Name)
open Verif.Spec.ConfigDb (Db Item allAllowed)

variable {B : Type} (conv : Conv B)

/-- Any document with simple block names, nested up to 249 levels, parsed into a database with any history, is accepted
exactly when all its statements can be carried out one after the other; the database then behaves, in all calls that
follow, as the tree that results, with the root as current node. -/
theorem c51_parse (before : List (Op (Leaf B))) (hb : allAllowed Spec.ConfigDb.empty before = true) (s : St (Leaf B))
    (hs : (ConfigDb.run ConfigDb.init before).map (·.2) = some s) (d : Stmts) (hd : d.blockNames = true)
    (depth : d.depth ≤ 249) :
    ∃ N, ∀ fuel, N ≤ fuel → ∃ c,
      match d.apply conv (Spec.ConfigDb.run Spec.ConfigDb.empty before).2 with
      | some db => parseStd conv stackCap fuel s (d.words.map tok) = .ok (true, c) ∧
          ∀ calls, allAllowed { db with cur := [] } calls = true →
            (ConfigDb.run c.db calls).map (·.1) = some (Spec.ConfigDb.run { db with cur := [] } calls).1
      | none => parseStd conv stackCap fuel s (d.words.map tok) = .ok (false, c) := by
  obtain ⟨N, h⟩ := parse_doc (conv := conv) (cap := stackCap) d s _ hd ⟨before, hb, hs, rfl⟩ (by unfold stackCap; omega)
  refine ⟨N, fun fuel hf => ?_⟩
  obtain ⟨c, hc⟩ := h fuel hf
  refine ⟨c, ?_⟩
  cases e : d.apply conv (Spec.ConfigDb.run Spec.ConfigDb.empty before).2 with
  | none => rw [e] at hc; exact hc
  | some db =>
    rw [e] at hc
    refine ⟨hc.1, fun calls ha => ?_⟩
    obtain ⟨s', h1, _⟩ := hist_run hc.2 calls ha
    rw [h1]
    rfl

/-- A document whose values exist and whose names are simple and distinct in each block, parsed into a new database, is
accepted, and the database is the tree that the document describes. -/
theorem c51_tree (d : Stmts) (hd : d.ok conv = true) (depth : d.depth ≤ 249) :
    ∃ N, ∀ fuel, N ≤ fuel → ∃ c, parseStd conv stackCap fuel ConfigDb.init (d.words.map tok) = .ok (true, c) ∧
      ∀ calls, allAllowed ⟨d.tree conv, []⟩ calls = true →
        (ConfigDb.run c.db calls).map (·.1) = some (Spec.ConfigDb.run ⟨d.tree conv, []⟩ calls).1 := by
  obtain ⟨N, h⟩ := c51_parse conv [] rfl ConfigDb.init rfl d (block_names_of_ok d hd) depth
  refine ⟨N, fun fuel hf => ?_⟩
  obtain ⟨c, hc⟩ := h fuel hf
  have e : d.apply conv (Spec.ConfigDb.run Spec.ConfigDb.empty []).2 = some ⟨d.tree conv, []⟩ := apply_empty d hd
  rw [e] at hc
  exact ⟨c, hc⟩

/-- Parsed into a database that has none of the names, at the current node, the document is added at the end, and
nothing else changes. -/
theorem c51_added (before : List (Op (Leaf B))) (hb : allAllowed Spec.ConfigDb.empty before = true) (s : St (Leaf B))
    (hs : (ConfigDb.run ConfigDb.init before).map (·.2) = some s) (item : List Name → Option (Item (Leaf B)))
    (p : List Name) (hdb : (Spec.ConfigDb.run Spec.ConfigDb.empty before).2 = ⟨item, p⟩) (ch : List Name)
    (hch : item p = some (.node ch)) (d : Stmts) (hd : d.ok conv = true) (depth : d.depth ≤ 249)
    (hnew : ∀ n ∈ d.names, n ∉ ch ∧ ∀ r, item (p ++ n :: r) = none) :
    ∃ item', Added conv item p d item' ∧ ∃ N, ∀ fuel, N ≤ fuel → ∃ c,
      parseStd conv stackCap fuel s (d.words.map tok) = .ok (true, c) ∧
      ∀ calls, allAllowed ⟨item', []⟩ calls = true →
        (ConfigDb.run c.db calls).map (·.1) = some (Spec.ConfigDb.run ⟨item', []⟩ calls).1 := by
  obtain ⟨item', h1, h2⟩ := apply_stmts (conv := conv) d ⟨item, p⟩ ch hd hch (fun n hn => (hnew n hn).1)
    (fun n hn => (hnew n hn).2)
  refine ⟨item', h2, ?_⟩
  obtain ⟨N, h⟩ := c51_parse conv before hb s hs d (block_names_of_ok d hd) depth
  refine ⟨N, fun fuel hf => ?_⟩
  obtain ⟨c, hc⟩ := h fuel hf
  rw [hdb, h1] at hc
  exact ⟨c, hc⟩

/-- A document with a value that does not exist (rows of different lengths, strings mixed with numbers, a text that is
no number of the type, a type of which there are no values) is refused. -/
theorem c51_bad_value (n : Name) (cast : Option (List Char)) (v : Data) (h : v.value conv cast = none) :
    ∃ N, ∀ fuel, N ≤ fuel → ∃ c,
      parseStd conv stackCap fuel ConfigDb.init ((Stmts.one (.leaf n cast v)).words.map tok) = .ok (false, c) := by
  obtain ⟨N, g⟩ := c51_parse conv [] rfl ConfigDb.init rfl (.one (.leaf n cast v)) rfl (by show 0 ≤ 249; decide)
  refine ⟨N, fun fuel hf => ?_⟩
  obtain ⟨c, hc⟩ := g fuel hf
  refine ⟨c, ?_⟩
  rw [Stmts.apply, Stmt.apply, h] at hc
  exact hc


/-- A sequence of words that is not a document is refused (or the parser uses a null pointer), whatever the database. -/
theorem c51_refuse (s : St (Leaf B)) (ws : List Word) (hb : .bar ∉ ws) (hn : Nest 249 ws) (h0 : ws ≠ [])
    (hd : ∀ d : Stmts, ws ≠ d.words) :
    ∃ N, ∀ fuel, N ≤ fuel → (∃ c, parseStd conv stackCap fuel s (ws.map tok) = .ok (false, c)) ∨
      parseStd conv stackCap fuel s (ws.map tok) = .crash :=
  refuse ws hb 249 hn (by decide) h0 hd s

private theorem parse_empty (s : St (Leaf B)) (m : Nat) :
    parseStd conv stackCap (m + 10) s [] = .ok (true, Cfg.new s) := rfl

/-- A sequence of words is accepted exactly when it is empty or a document whose statements can be carried out. -/
theorem c51_accepts_iff (before : List (Op (Leaf B))) (hb : allAllowed Spec.ConfigDb.empty before = true) (s : St (Leaf B))
    (hs : (ConfigDb.run ConfigDb.init before).map (·.2) = some s) (ws : List Word) (hbar : .bar ∉ ws) (hn : Nest 249 ws)
    (hnames : ∀ n, [.str n, .eq, .lb] <:+: ws → simpleName n = true) :
    ∃ N, ∀ fuel, N ≤ fuel → ((∃ c, parseStd conv stackCap fuel s (ws.map tok) = .ok (true, c)) ↔
      ws = [] ∨ ∃ d : Stmts, ws = d.words ∧
        (d.apply conv (Spec.ConfigDb.run Spec.ConfigDb.empty before).2).isSome = true) := by
  by_cases h0 : ws = []
  · subst h0
    refine ⟨10, fun fuel hf => ?_⟩
    obtain ⟨m, rfl⟩ : ∃ m, fuel = m + 10 := ⟨fuel - 10, by omega⟩
    exact ⟨fun _ => .inl rfl, fun _ => ⟨_, parse_empty conv s m⟩⟩
  · by_cases hd : ∃ d : Stmts, ws = d.words
    · obtain ⟨d, rfl⟩ := hd
      obtain ⟨N, h⟩ := c51_parse conv before hb s hs d (block_names_of_words d hnames) (depth_nest d 249 hn)
      refine ⟨N, fun fuel hf => ?_⟩
      obtain ⟨c, hc⟩ := h fuel hf
      constructor
      · rintro ⟨c', hc'⟩
        refine .inr ⟨d, rfl, ?_⟩
        cases e : d.apply conv (Spec.ConfigDb.run Spec.ConfigDb.empty before).2 with
        | none =>
          rw [e] at hc
          simp only at hc
          rw [hc] at hc'
          cases hc'
        | some db => rfl
      · rintro (h | ⟨d', h1, h2⟩)
        · exact absurd h h0
        · obtain ⟨N', h'⟩ := c51_parse conv before hb s hs d' (block_names_of_words d' (by rw [← h1]; exact hnames))
            (depth_nest d' 249 (by rw [← h1]; exact hn))
          cases e : d.apply conv (Spec.ConfigDb.run Spec.ConfigDb.empty before).2 with
          | some db => rw [e] at hc; exact ⟨c, hc.1⟩
          | none =>
            -- two documents with the same words cannot differ in the outcome
            exfalso
            obtain ⟨c1, g1⟩ := h (N + N') (by omega)
            obtain ⟨c2, g2⟩ := h' (N + N') (by omega)
            rw [e] at g1
            obtain ⟨db, hdb⟩ := Option.isSome_iff_exists.mp h2
            rw [hdb, ← h1] at g2
            simp only at g1 g2
            rw [g1] at g2
            cases g2.1
    · obtain ⟨N, h⟩ := c51_refuse conv s ws hbar hn h0 (fun d e => hd ⟨d, e⟩)
      refine ⟨N, fun fuel hf => ⟨?_, ?_⟩⟩
      · rintro ⟨c, hc⟩
        rcases h fuel hf with ⟨c', hc'⟩ | hc'
        · rw [hc] at hc'; cases hc'
        · rw [hc] at hc'; cases hc'
      · rintro (h | ⟨d, h, _⟩)
        · exact absurd h h0
        · exact absurd ⟨d, h⟩ hd

set_option synthInstance.maxSize 2000

/-- Conversion for the examples: the text itself. -/
def convId : Conv (List Char) := fun _ s => some s

/-- `a = 1  B = { c = (uint8){1 2}  D = { e = {{"x"} {"y"}} } }`. -/
def sample : Stmts :=
  .more (.leaf ['a'] none (.scalar ⟨true, ['1']⟩))
  (.one (.block ['B'] (.more (.leaf ['c'] (some "uint8".toList) (.vector ⟨true, ['1']⟩ [⟨true, ['2']⟩]))
    (.one (.block ['D'] (.one (.leaf ['e'] none (.matrix (⟨false, ['x']⟩, []) [(⟨false, ['y']⟩, [])]))))))))

/-- The hypotheses of `c51_tree` hold for it, and the tree is as expected. -/
example : sample.ok convId = true ∧ sample.depth ≤ 249 ∧
    sample.tree convId [['B'], ['c']] = some (.leaf ⟨5, 1, 2, 1, [.num ['1'], .num ['2']]⟩) ∧
    sample.tree convId [['B'], ['D'], ['e']] = some (.leaf ⟨0, 2, 1, 2, [.text ['x'], .text ['y']]⟩) ∧
    sample.tree convId [] = some (.node [['a'], ['B']]) := by decide +kernel

/-- A text that is not a document and satisfies the hypotheses of `c51_refuse`: `a = { b = 1`. -/
example : Word.bar ∉ [Word.str ['a'], .eq, .lb, .str ['b'], .eq, .num ['1']] ∧
    Nest 249 [Word.str ['a'], .eq, .lb, .str ['b'], .eq, .num ['1']] := by
  refine ⟨by decide, fun p hp => ?_⟩
  have := (hp.sublist.count_le (a := Word.lb))
  have e : List.count Word.lb [Word.str ['a'], .eq, .lb, .str ['b'], .eq, .num ['1']] = 1 := by decide
  omega

/-- What a parse gives, and what is read from the database afterwards. -/
def look (input : List Tok) (calls : List (Op (Leaf (List Char)))) : Option (Bool × Option (List (Out (Leaf (List Char))))) :=
  match parseStd convId stackCap 400 ConfigDb.init input with
  | .ok (b, c) => some (b, (ConfigDb.run c.db calls).map (·.1))
  | _ => none

def crashes (input : List Tok) : Bool :=
  match parseStd convId stackCap 400 ConfigDb.init input with
  | .crash => true
  | _ => false

/-- The parser runs on the sample. -/
example : look (sample.words.map tok) [.moveAbsolute "B.D".toList, .read ['e']] =
    some (true, some [.flag true, .value (some ⟨0, 2, 1, 2, [.text ['x'], .text ['y']]⟩)]) := by decide +kernel

/-- The name of a type that does not exist is accepted: `a = (uint9) 1` gives a string. -/
theorem c51_unknown_type_fails : look ((Stmts.one (.leaf ['a'] (some "uint9".toList) (.scalar ⟨true, ['1']⟩))).words.map tok)
    [.read ['a']] = some (true, some [.value (some ⟨0, 0, 1, 1, [.text ['1']]⟩)]) := by decide +kernel

/-- After a token that the language does not have, at the top level, the rest of the text is ignored, and the parser
reports success. -/
theorem c51_unknown_token_fails : look ([tok (.str ['a']), tok .eq, tok (.num ['1']), ⟨0, ['?']⟩, tok (.str ['b']), tok .eq,
    tok (.num ['2'])]) [.getNumberOfChildren] = some (true, some [.size 1]) := by decide +kernel

/-- A block with a name with dots: `A.B = { x = 1 } y = 2` puts `y` in `A`. -/
theorem c51_dotted_block_fails : look ((Stmts.more (.block "A.B".toList (.one (.leaf ['x'] none (.scalar ⟨true, ['1']⟩))))
    (.one (.leaf ['y'] none (.scalar ⟨true, ['2']⟩)))).words.map tok) [.read ['y'], .moveAbsolute ['A'], .read ['y']] =
    some (true, some [.value none, .flag true, .value (some ⟨0, 0, 1, 1, [.text ['2']]⟩)]) := by decide +kernel

/-- A block below a value: `v = 1  v.x = { a = 1 }` uses a null pointer. -/
theorem c51_block_below_value_crashes : crashes ((Stmts.more (.leaf ['v'] none (.scalar ⟨true, ['1']⟩))
    (.one (.block "v.x".toList (.one (.leaf ['a'] none (.scalar ⟨true, ['1']⟩)))))).words.map tok) = true := by
  decide +kernel

/-- A value with the name of an existing block replaces the block, and the parser reports success. -/
theorem c51_value_replaces_block : look ((Stmts.more (.block ['A'] (.one (.leaf ['x'] none (.scalar ⟨true, ['1']⟩))))
    (.one (.leaf ['A'] none (.scalar ⟨true, ['2']⟩)))).words.map tok) [.getNumberOfChildren, .read ['A'], .moveAbsolute ['A']] =
    some (true, some [.size 1, .value (some ⟨0, 0, 1, 1, [.text ['2']]⟩), .flag false]) := by decide +kernel

/-- The type `bool` and an empty block are refused; an empty text is accepted. -/
theorem c51_refused :
    look ((Stmts.one (.leaf ['a'] (some "bool".toList) (.scalar ⟨true, ['1']⟩))).words.map tok) [] = some (false, some []) ∧
    look ([Word.str ['a'], .eq, .lb, .rb].map tok) [] = some (false, some []) ∧
    look [] [] = some (true, some []) := by decide +kernel

end Verif.Config
