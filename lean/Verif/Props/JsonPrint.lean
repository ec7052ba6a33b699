import Verif.Proof.JsonPrint3
import Verif.Props.JsonParser
/-! ## C99: a configuration printed in the JSON language and parsed again -/
namespace Verif.Json
open Verif.Config (Leaf Val Conv Hist hist_run convId doc)
open Verif.ConfigDb (Op Out St Name)
open Verif.Spec.ConfigDb (Db Item Forest Below allAllowed)
open Verif.Spec.ConfigPrint (asText)
open Verif.Spec.JsonPrint
open Verif.Parser (stackCap)

variable {B : Type} (pr : Nat → B → List Char) (conv : Conv B) (num : List Char → Bool)

private theorem whole_below {db : Db (Leaf B)} {F : Forest (Leaf B)} (h : Below db.item db.cur F) (hd : F.distinct = true)
    (hw : narrow F = true) : Whole db := by
  have e : Spec.ConfigDb.children db.item db.cur = F.names := by
    have := h []
    rw [List.append_nil] at this
    rw [Spec.ConfigDb.children, this]; rfl
  refine ⟨by rw [e]; exact names_nodup hd, by rw [e]; exact narrow_few hw, fun x hx => ?_⟩
  rw [h [x]]
  rw [e] at hx
  rw [Forest.item, Spec.ConfigDb.at_none hx]; rfl

private theorem round (c : Bool) (before : List (Op (Leaf B))) (hb : allAllowed Spec.ConfigDb.empty before = true) (s : St (Leaf B))
    (hs : (ConfigDb.run ConfigDb.init before).map (·.2) = some s) (F : Forest (Leaf B))
    (hF : Below (Spec.ConfigDb.run Spec.ConfigDb.empty before).2.item
      (Spec.ConfigDb.run Spec.ConfigDb.empty before).2.cur F) (hd : F.distinct = true)
    (hg : good pr num F = true) (hf : F.full = true) (hw : narrow F = true) (hlist : lists c false none F) (hdepth : depth c F ≤ 248) :
    ∃ t, (∃ M, ∀ fuel, M ≤ fuel → ∃ s', printStructured (jsonPrinter pr) c fuel s = some (true, t, s') ∧
        ∀ calls, allAllowed (Spec.ConfigDb.run Spec.ConfigDb.empty before).2 calls = true →
          (ConfigDb.run s' calls).map (·.1) =
            some (Spec.ConfigDb.run (Spec.ConfigDb.run Spec.ConfigDb.empty before).2 calls).1) ∧
      ∃ N, ∀ fuel, N ≤ fuel → ∃ u, parseJsonText conv num stackCap fuel ConfigDb.init t = .ok (true, u) ∧
        ∀ calls, allAllowed ⟨(F.map (asText pr)).item, []⟩ calls = true →
          (ConfigDb.run u.cfg.db calls).map (·.1) = some (Spec.ConfigDb.run ⟨(F.map (asText pr)).item, []⟩ calls).1 := by
  simp only [good, Bool.and_eq_true] at hg
  obtain ⟨hl, hn⟩ := hg
  refine ⟨Spec.Lexer.text (jpieces pr c F), ⟨F.size + 1, fun fuel hfu => ?_⟩, ?_⟩
  · obtain ⟨l, h1, h2, h3, h4⟩ := print_loop (pr := pr) (num := num) c F fuel 0 (Loop.new s) _ false true none ⟨before, hb, hs, rfl⟩
      (Spec.ConfigDb.part_of_below hF) hd hl hn hw hlist (fun _ => rfl) (whole_below hF hd hw) (fun _ => seen_new _) rfl rfl rfl rfl hfu
    refine ⟨l.db, ?_, fun calls ha => ?_⟩
    · rw [printStructured, h1]
      simp only [Option.map_some, h2, h3, if_true]
      simp [jpieces, Spec.Lexer.text, Spec.Lexer.Piece.text, jsonPrinter, Loop.new]
    · obtain ⟨s'', e, _⟩ := hist_run h4 calls ha
      rw [e]
      rfl
  · have h3 := c63_text_to_tree conv num (jdoc pr c F) (jdoc_lists hlist hw) (by rw [jdoc_plain hf hlist]; exact doc_ok conv hl hn hf hd)
      (Nat.le_trans (jdoc_depth c F) (by omega)) _ (jdoc_says hl hn hf hlist)
    rw [jdoc_plain hf hlist, doc_tree conv hl hf] at h3
    exact h3

/-- **C99.** A database with any history, whose names and values below the current node can be written in the JSON language, and which has no
empty node there, is printed as one JSON object; the database still behaves as before; and the text, parsed into a new database, is accepted and
gives the same tree, with texts in the place of the numbers. -/
theorem c99_round_trip (before : List (Op (Leaf B))) (hb : allAllowed Spec.ConfigDb.empty before = true) (s : St (Leaf B))
    (hs : (ConfigDb.run ConfigDb.init before).map (·.2) = some s) (F : Forest (Leaf B))
    (hF : Below (Spec.ConfigDb.run Spec.ConfigDb.empty before).2.item
      (Spec.ConfigDb.run Spec.ConfigDb.empty before).2.cur F) (hd : F.distinct = true)
    (hg : good pr num F = true) (hf : F.full = true) (hw : narrow F = true) (hdepth : depth false F ≤ 248) :
    ∃ t, (∃ M, ∀ fuel, M ≤ fuel → ∃ s', printStructured (jsonPrinter pr) false fuel s = some (true, t, s') ∧
        ∀ calls, allAllowed (Spec.ConfigDb.run Spec.ConfigDb.empty before).2 calls = true →
          (ConfigDb.run s' calls).map (·.1) =
            some (Spec.ConfigDb.run (Spec.ConfigDb.run Spec.ConfigDb.empty before).2 calls).1) ∧
      ∃ N, ∀ fuel, N ≤ fuel → ∃ u, parseJsonText conv num stackCap fuel ConfigDb.init t = .ok (true, u) ∧
        ∀ calls, allAllowed ⟨(F.map (asText pr)).item, []⟩ calls = true →
          (ConfigDb.run u.cfg.db calls).map (·.1) = some (Spec.ConfigDb.run ⟨(F.map (asText pr)).item, []⟩ calls).1 :=
  round pr conv num false before hb s hs F hF hd hg hf hw (fun e => (by cases e)) hdepth

/-- **C99.** Also when the arrays of nodes are collapsed into lists, if the nodes with a bracket in their name are the blocks `a[0]`, `a[1]`, ... of
lists, in this order and with nothing between them. -/
theorem c99_lists_partial (before : List (Op (Leaf B))) (hb : allAllowed Spec.ConfigDb.empty before = true) (s : St (Leaf B))
    (hs : (ConfigDb.run ConfigDb.init before).map (·.2) = some s) (F : Forest (Leaf B))
    (hF : Below (Spec.ConfigDb.run Spec.ConfigDb.empty before).2.item
      (Spec.ConfigDb.run Spec.ConfigDb.empty before).2.cur F) (hd : F.distinct = true)
    (hg : good pr num F = true) (hf : F.full = true) (hw : narrow F = true) (hlist : listed false none F = true) (hdepth : depth true F ≤ 248) :
    ∃ t, (∃ M, ∀ fuel, M ≤ fuel → ∃ s', printStructured (jsonPrinter pr) true fuel s = some (true, t, s') ∧
        ∀ calls, allAllowed (Spec.ConfigDb.run Spec.ConfigDb.empty before).2 calls = true →
          (ConfigDb.run s' calls).map (·.1) =
            some (Spec.ConfigDb.run (Spec.ConfigDb.run Spec.ConfigDb.empty before).2 calls).1) ∧
      ∃ N, ∀ fuel, N ≤ fuel → ∃ u, parseJsonText conv num stackCap fuel ConfigDb.init t = .ok (true, u) ∧
        ∀ calls, allAllowed ⟨(F.map (asText pr)).item, []⟩ calls = true →
          (ConfigDb.run u.cfg.db calls).map (·.1) = some (Spec.ConfigDb.run ⟨(F.map (asText pr)).item, []⟩ calls).1 :=
  round pr conv num true before hb s hs F hF hd hg hf hw (fun _ => hlist) hdepth

/-! ### Examples -/

set_option synthInstance.maxSize 2000
set_option maxRecDepth 8000

/-- Numbers are their own text. -/
private def prId (_ : Nat) (b : List Char) : List Char := b

private def digits (s : List Char) : Bool := s.all Char.isDigit

private def str (s : String) : Leaf (List Char) := ⟨0, 0, 1, 1, [.text s.toList]⟩

/-- Values of 4 dimensions cannot be printed. -/
private def noValue : Leaf (List Char) := ⟨0, 4, 1, 1, []⟩

private def printedWith (p : Printer (List Char)) (c : Bool) (ops : List (Op (Leaf (List Char)))) : Option (Bool × String) :=
  (ConfigDb.run ConfigDb.init ops).bind fun r => (printStructured p c 20 r.2).map fun q => (q.1, String.ofList q.2.1)

private def printed (c : Bool) (ops : List (Op (Leaf (List Char)))) : Option (Bool × String) := printedWith (jsonPrinter prId) c ops

private def parsed (t : String) (calls : List (Op (Leaf (List Char)))) : Option (Bool × Option (List (Out (Leaf (List Char))))) :=
  match parseJsonText convId digits stackCap 400 ConfigDb.init t.toList with
  | .ok (b, u) => some (b, (ConfigDb.run u.cfg.db calls).map (·.1))
  | _ => none

/-- A node with a value. -/
private def node (n : String) : List (Op (Leaf (List Char))) := [.createAbsolute n.toList, .write ['x'] (str n), .moveToRoot]

private def sampleOps : List (Op (Leaf (List Char))) :=
  node "A[0]" ++ node "A[1]" ++ node "B c" ++ [.write ['v'] ⟨5, 2, 2, 2, [.num ['1'], .num ['2'], .num ['3'], .num ['4']]⟩]

private def sampleForest : Forest (Leaf (List Char)) :=
  .node "A[0]".toList (.leaf ['x'] (str "A[0]") .nil) (.node "A[1]".toList (.leaf ['x'] (str "A[1]") .nil)
    (.node "B c".toList (.leaf ['x'] (str "B c") .nil) (.leaf ['v'] ⟨5, 2, 2, 2, [.num ['1'], .num ['2'], .num ['3'], .num ['4']]⟩ .nil)))

/-- A tree with a list, a name with a blank and a matrix meets the hypotheses. -/
example : allAllowed Spec.ConfigDb.empty sampleOps = true ∧
    (∀ q ∈ [[], ["A[0]".toList], ["A[0]".toList, ['x']], ["A[1]".toList], ["A[1]".toList, ['x']], ["B c".toList, ['x']], [['v']], [['w']]],
      (Spec.ConfigDb.run Spec.ConfigDb.empty sampleOps).2.item q = sampleForest.item q) := by decide +kernel
example : sampleForest.distinct = true ∧ good prId digits sampleForest = true ∧ sampleForest.full = true ∧ narrow sampleForest = true ∧
    listed false none sampleForest = true ∧ depth true sampleForest = 2 ∧ depth false sampleForest = 1 := by decide +kernel

example : printed false sampleOps = some (true,
    "{\"A[0]\": {\"x\": \"A[0]\"},\"A[1]\": {\"x\": \"A[1]\"},\"B c\": {\"x\": \"B c\"},\"v\": [ [ 1, 2 ] ,[ 3, 4 ] ] }") := by decide +kernel
example : printed true sampleOps = some (true,
    "{\"A\" : [{\"x\": \"A[0]\"},{\"x\": \"A[1]\"}],\"B c\": {\"x\": \"B c\"},\"v\": [ [ 1, 2 ] ,[ 3, 4 ] ] }") := by decide +kernel

/-- **C99 (disagreement).** A node between the blocks of a list becomes a block of the list, and a block of the list is printed a second time in its
own list, which is not closed: one node is lost, another is there twice, and the answer is yes. -/
theorem c99_between_fails : printed true (node "A[0]" ++ node "B" ++ node "A[1]") =
    some (true, "{\"A\" : [{\"x\": \"A[0]\"},{\"x\": \"B\"}],\"A\" : [{\"x\": \"A[0]\"}}") := by decide +kernel

/-- **C99 (disagreement).** A number that is missing: the list is never closed, or takes the next node. -/
theorem c99_gap_fails : printed true (node "A[0]" ++ node "A[2]") = some (true, "{\"A\" : [{\"x\": \"A[0]\"},{\"x\": \"A[2]\"}}") ∧
    printed true (node "A[0]" ++ node "A[2]" ++ node "B") =
      some (true, "{\"A\" : [{\"x\": \"A[0]\"},{\"x\": \"A[2]\"},{\"x\": \"B\"}]}") := by decide +kernel

/-- **C99 (disagreement).** In another order one block is printed twice and the other one is lost. -/
theorem c99_order_fails : printed true (node "A[1]" ++ node "A[0]") =
    some (true, "{\"A\" : [{\"x\": \"A[0]\"},{\"x\": \"A[0]\"}]}") := by decide +kernel

/-- **C99 (disagreement).** A list that does not begin with 0 is an error; but after it the next separator makes the answer yes, and the printer is one
level higher than the node. -/
theorem c99_forgotten_fails : printed true (node "A[1]") = some (false, "{") ∧
    printed true (node "A[1]" ++ node "B") = some (true, "{,{\"x\": \"B\"}}") := by decide +kernel

/-- **C99 (disagreement).** A value that cannot be printed is an error only if it is the last one. -/
theorem c99_value_fails : printed false [.write ['a'] noValue] = some (false, "{\"a\": ") ∧
    printed false [.write ['a'] noValue, .write ['b'] (str "y")] = some (true, "{\"a\": ,\"b\": \"y\"}") := by decide +kernel

/-- **C99 (disagreement).** Any text around a bracket is taken for an array of nodes. -/
theorem c99_bracket_fails : printed true (node "A[x]") = some (false, "{") ∧ printed false (node "A[x]") = some (true, "{\"A[x]\": {\"x\": \"A[x]\"}}") := by
  decide +kernel

/-- **C99 (disagreement).** Quotes and backslashes are not escaped: the text is refused, or the value comes back changed. -/
theorem c99_quotes_fails : printed false [.write ['a'] (str "x\"y")] = some (true, "{\"a\": \"x\"y\"}") ∧
    (parsed "{\"a\": \"x\"y\"}" []).map (·.1) = some false ∧
    printed false [.write ['a'] (str "x\\ny")] = some (true, "{\"a\": \"x\\ny\"}") ∧
    parsed "{\"a\": \"x\\ny\"}" [.read ['a']] = some (true, some [.value (some (str "x\ny"))]) := by decide +kernel

/-- **C99 (disagreement).** A node without children is printed, and refused by the parser. -/
theorem c99_empty_fails : printed false [.createAbsolute ['A'], .moveToRoot] = some (true, "{\"A\": {}}") ∧
    (parsed "{\"A\": {}}" []).map (·.1) = some false := by decide +kernel

/-- **C99 (disagreement).** The printer of the standard language has no lists: an array of nodes, which it prints when it does not have to collapse it,
is an error, and what comes after it is not printed. -/
theorem c99_standard_fails : printedWith (stdPrinter prId) true (node "A[0]" ++ node "B") = some (false, "") ∧
    printedWith (stdPrinter prId) false (node "A[0]" ++ node "B") = some (true, "A[0] = {x =\"A[0]\"}B = {x =\"B\"}") := by decide +kernel

end Verif.Json
