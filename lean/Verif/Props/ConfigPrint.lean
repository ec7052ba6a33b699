import Verif.Proof.ConfigPrint2
import Verif.Proof.Forest2
import Verif.Props.Lexer
/-! ## C53: a configuration printed in the standard language and parsed again -/
namespace Verif.Config
open Verif.ConfigDb (Op Out St Name)
open Verif.Spec.ConfigDb (Db Item Forest Below allAllowed)
open Verif.Spec.ConfigPrint
open Verif.Parser (stackCap)

variable {B : Type} (pr : Nat → B → List Char) (conv : Conv B) (num : List Char → Bool)

/-- What a database with any history has at and below its current node is a forest, with distinct names in each node. -/
theorem c53_every_tree (before : List (Op (Leaf B))) (hb : allAllowed Spec.ConfigDb.empty before = true) :
    ∃ F : Forest (Leaf B), Below (Spec.ConfigDb.run Spec.ConfigDb.empty before).2.item
      (Spec.ConfigDb.run Spec.ConfigDb.empty before).2.cur F ∧ F.distinct = true :=
  Spec.ConfigDb.grown_forest (Spec.ConfigDb.grown_run Spec.ConfigDb.grown_empty before hb)

/-- A database with any history, whose names and values below the current node can be written, and which has no empty
node there, is printed; the database still behaves as before; and the text, parsed into a new database, is accepted and
gives the same tree, with texts in the place of the numbers. -/
theorem c53_round_trip (before : List (Op (Leaf B))) (hb : allAllowed Spec.ConfigDb.empty before = true) (s : St (Leaf B))
    (hs : (ConfigDb.run ConfigDb.init before).map (·.2) = some s) (F : Forest (Leaf B))
    (hF : Below (Spec.ConfigDb.run Spec.ConfigDb.empty before).2.item
      (Spec.ConfigDb.run Spec.ConfigDb.empty before).2.cur F) (hd : F.distinct = true)
    (hl : F.allLeaves (fun n v => goodName num n && goodLeaf pr num v) = true) (hn : F.allNodes (goodName num) = true)
    (hf : F.full = true) (depth : F.depth ≤ 249) :
    ∃ t, (∃ M, ∀ fuel, M ≤ fuel → ∃ s', printTree pr fuel s = some (true, t, s') ∧
        ∀ calls, allAllowed (Spec.ConfigDb.run Spec.ConfigDb.empty before).2 calls = true →
          (ConfigDb.run s' calls).map (·.1) =
            some (Spec.ConfigDb.run (Spec.ConfigDb.run Spec.ConfigDb.empty before).2 calls).1) ∧
      ∃ N, ∀ fuel, N ≤ fuel → ∃ c, parseText conv num stackCap fuel ConfigDb.init t = .ok (true, c) ∧
        ∀ calls, allAllowed ⟨(F.map (asText pr)).item, []⟩ calls = true →
          (ConfigDb.run c.db calls).map (·.1) = some (Spec.ConfigDb.run ⟨(F.map (asText pr)).item, []⟩ calls).1 := by
  have h := printTree_forest (pr := pr) (num := num) (s := s) ⟨before, hb, hs, rfl⟩ hF hd hl hn
  refine ⟨Spec.Lexer.text (treePieces pr 0 F), ⟨F.size + 1, fun fuel hf => ?_⟩, ?_⟩
  · obtain ⟨s', h1, h2⟩ := h fuel hf
    refine ⟨s', h1, fun calls ha => ?_⟩
    obtain ⟨s'', e, _⟩ := hist_run h2 calls ha
    rw [e]
    rfl
  · have h3 := c52_text_to_tree conv num (doc pr F) (doc_ok conv hl hn hf hd)
      (Nat.le_trans (doc_depth hf) depth) _ (tree_says hl hn hf 0)
    rw [doc_tree conv hl hf] at h3
    exact h3

/-- With `StandardPrinter`, too, if in addition a single number is always the last child of its node. -/
theorem c53_standard_printer (ns : ∀ w, num w = true → w.getLast? ≠ some '/') (before : List (Op (Leaf B)))
    (hb : allAllowed Spec.ConfigDb.empty before = true) (s : St (Leaf B))
    (hs : (ConfigDb.run ConfigDb.init before).map (·.2) = some s) (F : Forest (Leaf B))
    (hF : Below (Spec.ConfigDb.run Spec.ConfigDb.empty before).2.item
      (Spec.ConfigDb.run Spec.ConfigDb.empty before).2.cur F) (hd : F.distinct = true)
    (hl : F.allLeaves (fun n v => goodName num n && goodLeaf pr num v) = true) (hn : F.allNodes (goodName num) = true)
    (hf : F.full = true) (depth : F.depth ≤ 249) (hk : numbersLast F = true) :
    ∃ t, (∃ M, ∀ fuel, M ≤ fuel → ∃ s', standardPrinter pr fuel 0 s = some (true, t, s') ∧
        ∀ calls, allAllowed (Spec.ConfigDb.run Spec.ConfigDb.empty before).2 calls = true →
          (ConfigDb.run s' calls).map (·.1) =
            some (Spec.ConfigDb.run (Spec.ConfigDb.run Spec.ConfigDb.empty before).2 calls).1) ∧
      ∃ N, ∀ fuel, N ≤ fuel → ∃ c, parseText conv num stackCap fuel ConfigDb.init t = .ok (true, c) ∧
        ∀ calls, allAllowed ⟨(F.map (asText pr)).item, []⟩ calls = true →
          (ConfigDb.run c.db calls).map (·.1) = some (Spec.ConfigDb.run ⟨(F.map (asText pr)).item, []⟩ calls).1 := by
  refine ⟨Spec.Lexer.text (stdPieces pr F), ⟨F.size + 1, fun fuel hf => ?_⟩, ?_⟩
  · obtain ⟨s', h1, h2⟩ := print_std (pr := pr) (num := num) F fuel 0 s _ ⟨before, hb, hs, rfl⟩
      (Spec.ConfigDb.part_of_below hF) hd hl hn hf
    refine ⟨s', h1, fun calls ha => ?_⟩
    obtain ⟨s'', e, _⟩ := hist_run h2 calls ha
    rw [e]
    rfl
  · have h3 := c52_text_to_tree conv num (doc pr F) (doc_ok conv hl hn hf hd)
      (Nat.le_trans (doc_depth hf) depth) _ (std_says hl hn hf hk ns)
    rw [doc_tree conv hl hf] at h3
    exact h3

private theorem same_strings (v : Leaf B) (h : ofStrings v = true) : asText pr v = v := by
  simp only [ofStrings, Bool.and_eq_true, beq_iff_eq] at h
  obtain ⟨ty, dims, cols, rows, data⟩ := v
  obtain ⟨h1, h2⟩ := h
  simp only at h1 h2
  have : data.map (fun x => Val.text (elementText pr ty x)) = data := by
    rw [List.all_eq_true] at h2
    conv => rhs; rw [← List.map_id data]
    apply List.map_congr_left
    intro x hx
    have := h2 x hx
    cases x with
    | text s => rfl
    | num b => cases this
  subst h1
  simp [asText, this]

private theorem map_same {F : Forest (Leaf B)} (h : F.allLeaves (fun _ v => ofStrings v) = true) : F.map (asText pr) = F := by
  induction F with
  | nil => rfl
  | leaf n v r ih =>
    simp only [Forest.allLeaves, Bool.and_eq_true] at h
    rw [Forest.map, same_strings pr v h.1, ih h.2]
  | node n S r ihS ih =>
    simp only [Forest.allLeaves, Bool.and_eq_true] at h
    rw [Forest.map, ihS h.1, ih h.2]

/-- A tree whose values are strings, or arrays of strings, is reproduced exactly. -/
theorem c53_strings (before : List (Op (Leaf B))) (hb : allAllowed Spec.ConfigDb.empty before = true) (s : St (Leaf B))
    (hs : (ConfigDb.run ConfigDb.init before).map (·.2) = some s) (F : Forest (Leaf B))
    (hF : Below (Spec.ConfigDb.run Spec.ConfigDb.empty before).2.item
      (Spec.ConfigDb.run Spec.ConfigDb.empty before).2.cur F) (hd : F.distinct = true)
    (hl : F.allLeaves (fun n v => goodName num n && goodLeaf pr num v) = true) (hn : F.allNodes (goodName num) = true)
    (hf : F.full = true) (depth : F.depth ≤ 249) (strings : F.allLeaves (fun _ v => ofStrings v) = true) :
    ∃ t, (∃ M, ∀ fuel, M ≤ fuel → ∃ s', printTree pr fuel s = some (true, t, s')) ∧
      ∃ N, ∀ fuel, N ≤ fuel → ∃ c, parseText conv num stackCap fuel ConfigDb.init t = .ok (true, c) ∧
        ∀ calls, allAllowed ⟨F.item, []⟩ calls = true →
          (ConfigDb.run c.db calls).map (·.1) = some (Spec.ConfigDb.run ⟨F.item, []⟩ calls).1 := by
  obtain ⟨t, ⟨M, h1⟩, h2⟩ := c53_round_trip pr conv num before hb s hs F hF hd hl hn hf depth
  rw [map_same pr strings] at h2
  exact ⟨t, ⟨M, fun fuel hf => (h1 fuel hf).imp fun _ h => h.1⟩, h2⟩

/-! ### Examples -/

set_option synthInstance.maxSize 2000
set_option maxRecDepth 8000

/-- Numbers are their own text. -/
private def prId (_ : Nat) (b : List Char) : List Char := b

private def str (s : String) : Leaf (List Char) := ⟨0, 0, 1, 1, [.text s.toList]⟩

private def printed (ops : List (Op (Leaf (List Char)))) : Option (Bool × String) :=
  (ConfigDb.run ConfigDb.init ops).bind fun r => (printTree prId 20 r.2).map fun q => (q.1, String.ofList q.2.1)

private def printedStd (ops : List (Op (Leaf (List Char)))) : Option (Bool × String) :=
  (ConfigDb.run ConfigDb.init ops).bind fun r => (standardPrinter prId 20 0 r.2).map fun q => (q.1, String.ofList q.2.1)

private def digits (s : List Char) : Bool := s.all Char.isDigit

private def parsed (t : String) (calls : List (Op (Leaf (List Char)))) : Option (Bool × Option (List (Out (Leaf (List Char))))) :=
  match parseText convId digits stackCap 400 ConfigDb.init t.toList with
  | .ok (b, c) => some (b, (ConfigDb.run c.db calls).map (·.1))
  | _ => none

private def sampleOps : List (Op (Leaf (List Char))) :=
  [.write ['a'] (str "x y"), .createRelative ['B'], .write ['c'] ⟨5, 1, 2, 1, [.num ['1'], .num ['2']]⟩, .createRelative ['D'],
    .write ['e'] ⟨0, 2, 1, 2, [.text ['x'], .text ['y']]⟩, .moveToRoot]

private def sampleForest : Forest (Leaf (List Char)) :=
  .leaf ['a'] (str "x y") (.node ['B'] (.leaf ['c'] ⟨5, 1, 2, 1, [.num ['1'], .num ['2']]⟩
    (.node ['D'] (.leaf ['e'] ⟨0, 2, 1, 2, [.text ['x'], .text ['y']]⟩ .nil) .nil)) .nil)

/-- A tree of three levels meets the hypotheses. -/
example : allAllowed Spec.ConfigDb.empty sampleOps = true ∧
    (∀ q ∈ [[], [['a']], [['B']], [['B'], ['c']], [['B'], ['D']], [['B'], ['D'], ['e']], [['c']]],
      (Spec.ConfigDb.run Spec.ConfigDb.empty sampleOps).2.item q = sampleForest.item q) ∧
    sampleForest.distinct = true ∧ sampleForest.full = true ∧ sampleForest.depth ≤ 249 ∧
    sampleForest.allLeaves (fun n v => goodName digits n && goodLeaf prId digits v) = true ∧
    sampleForest.allNodes (goodName digits) = true := by decide +kernel

example : printed sampleOps = some (true, "a = \"x y\"\r\nB = {\r\n    c = { 1 2 } \r\n    D = {\r\n        e = { { \"x\" } { \"y\" } } \r\n    }\r\n}\r\n") := by
  decide +kernel

example : printedStd sampleOps = some (true, "a =\"x y\"B = {c ={ 1 2 } D = {e ={ { \"x\" } { \"y\" } } }}") ∧
    numbersLast sampleForest = true := by decide +kernel

/-- The printed text of the sample is parsed, and read. -/
example : parsed "a = \"x y\"\r\nB = {\r\n    c = { 1 2 } \r\n    D = {\r\n        e = { { \"x\" } { \"y\" } } \r\n    }\r\n}\r\n"
    [.read ['a'], .moveAbsolute "B.D".toList, .read ['e']] =
    some (true, some [.value (some (str "x y")), .flag true, .value (some ⟨0, 2, 1, 2, [.text ['x'], .text ['y']]⟩)]) := by
  decide +kernel

/-- Quotes are not escaped: the string `x"y` is printed as `"x"y"`, which is refused. -/
theorem c53_quotes_fail : printed [.write ['a'] (str "x\"y")] = some (true, "a = \"x\"y\"\r\n") ∧
    (parsed "a = \"x\"y\"\r\n" []).map (·.1) = some false := by decide +kernel

/-- Backslashes neither: the string `x\ny` with a backslash comes back with the end of a line. -/
theorem c53_backslash_fails : printed [.write ['a'] (str "x\\ny")] = some (true, "a = \"x\\ny\"\r\n") ∧
    parsed "a = \"x\\ny\"\r\n" [.read ['a']] = some (true, some [.value (some (str "x\ny"))]) := by decide +kernel

/-- Names are not quoted: the name `x y` is refused. -/
theorem c53_blank_in_name_fails : printed [.write "x y".toList (str "v")] = some (true, "x y = \"v\"\r\n") ∧
    (parsed "x y = \"v\"\r\n" []).map (·.1) = some false := by decide +kernel

/-- A name that is a number is refused. -/
theorem c53_number_as_name_fails : printed [.write "1".toList (str "v")] = some (true, "1 = \"v\"\r\n") ∧
    (parsed "1 = \"v\"\r\n" []).map (·.1) = some false := by decide +kernel

/-- A node without children is printed, and refused. -/
theorem c53_empty_node_fails : printed [.createAbsolute ['A'], .moveToRoot] = some (true, "A = {\r\n}\r\n") ∧
    (parsed "A = {\r\n}\r\n" []).map (·.1) = some false := by decide +kernel

/-- The type of a number is lost: it comes back as a string. -/
theorem c53_types_fail : printed [.write ['a'] ⟨5, 0, 1, 1, [.num ['7']]⟩] = some (true, "a = 7\r\n") ∧
    parsed "a = 7\r\n" [.read ['a']] = some (true, some [.value (some (str "7"))]) := by decide +kernel

/-- `StandardPrinter` puts nothing between a number and the next name: the numbers 1 and 2 come back as refused text. -/
theorem c53_standard_printer_fails :
    printedStd [.write ['a'] ⟨5, 0, 1, 1, [.num ['1']]⟩, .write ['b'] ⟨5, 0, 1, 1, [.num ['2']]⟩] = some (true, "a =1b =2") ∧
    (parsed "a =1b =2" []).map (·.1) = some false := by decide +kernel

end Verif.Config
