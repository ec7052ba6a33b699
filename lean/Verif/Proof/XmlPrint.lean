import Verif.Proof.JsonPrint3
import Verif.Proof.XmlLex
import Verif.Spec.XmlPrint
/-! ## What `PrintStructuredDataI` writes with any printer -/
set_option linter.unusedSimpArgs false
set_option maxRecDepth 8000
namespace Verif.Xml
open Verif.Config (Leaf Val Hist hist_step text_append Conv doc mkData lit toPair full_leaf full_node doc_names map_names raw_value)
open Verif.ConfigDb (Op Out St Name step)
open Verif.Json
open Verif.Spec.ConfigDb (Db Item Forest Part children isNode stepName stepName_path hist_size hist_childName hist_into hist_not_into
  hist_read hist_back part_nil part_leaf part_node at_none at_some at_node_ne)
open Verif.Spec.ConfigDoc (nameOk Stmt Stmts)
open Verif.Spec.StreamData (printable shown)
open Verif.Spec.XmlPrint

variable {B : Type}

theorem print_plain (p : Printer B) : ∀ (F : Forest (Leaf B)) (fuel i : Nat) (l : Loop B) (db : Db (Leaf B)) (sep : List Char),
    Hist l.db db → Part db.item db.cur i F → F.distinct = true → printable p F = true →
    F.allLeaves (fun n _ => nameOk n) = true → F.allNodes nameOk = true → l.ok = true → l.listOpen = false →
    sep = (if l.afterBlock then p.blockSep else if l.afterVar then p.varSep else []) → F.size < fuel →
    ∃ l', printLoop p false fuel i l = some l' ∧ l'.ok = true ∧ l'.out = l.out ++ written p sep F ∧ Hist l'.db db := by
  intro F
  induction F with
  | nil =>
    intro fuel i l db sep hs hp _ _ _ _ hok _ _ hf
    obtain ⟨fuel, rfl⟩ : ∃ m, fuel = m + 1 := ⟨fuel - 1, by omega⟩
    have := part_nil hp
    obtain ⟨s0, e0, g0⟩ := hist_size hs
    refine ⟨{ l with db := s0 }, ?_, hok, by simp [written], g0⟩
    rw [printLoop, e0]
    simp only
    rw [if_neg (by omega)]
  | leaf n v r ih =>
    intro fuel i l db sep hs hp hd hv hl hn hok hlo hsep hf
    obtain ⟨fuel, rfl⟩ : ∃ m, fuel = m + 1 := ⟨fuel - 1, by omega⟩
    simp only [Forest.distinct, Bool.and_eq_true, decide_eq_true_eq] at hd
    simp only [Forest.allLeaves, Bool.and_eq_true] at hl
    simp only [Forest.allNodes] at hn
    simp only [printable, Forest.allLeaves, Bool.and_eq_true] at hv
    simp only [Forest.size] at hf
    obtain ⟨p1, p2, p3, p4⟩ := part_leaf hp hd.1
    obtain ⟨s0, e0, g0⟩ := hist_size hs
    obtain ⟨s1, e1, g1⟩ := hist_childName g0 p2
    obtain ⟨s2, e2, g2⟩ := hist_missing g1 (n := n) hl.1 (by rw [p4]; rfl)
    obtain ⟨s3, e3, g3⟩ := hist_read g2 n
    rw [p4] at e3
    obtain ⟨t, ht⟩ : ∃ t, p.value v = some (true, t) := by
      cases e : p.value v with
      | none => rw [e] at hv; simp at hv
      | some x =>
        obtain ⟨a, b⟩ := x
        rw [e] at hv
        simp only [Option.any_some] at hv
        rw [hv.1]; exact ⟨b, rfl⟩
    have hsh : shown p v = t := by simp [shown, ht]
    obtain ⟨d, out, ok, ab, av, lo, left, ln⟩ := l
    simp only at hok hlo hs hsep e0
    subst hok hlo
    obtain ⟨l4, e4, o4, t4, g4⟩ := ih fuel (i + 1) ⟨s3, out ++ sep ++ p.openVar n ++ t ++ p.closeVar n, true, false, true, false, left, ln⟩ db p.varSep
      g3 p3 hd.2 hv.2 hl.2 hn rfl rfl rfl (by omega)
    refine ⟨l4, ?_, o4, ?_, g4⟩
    · rw [printLoop, e0]
      simp only
      rw [if_pos p1, e1]
      have : printVar p n { separate p ⟨d, out, true, ab, av, false, left, ln⟩ with db := s2 } =
          some ⟨s3, out ++ sep ++ p.openVar n ++ t ++ p.closeVar n, true, false, true, false, left, ln⟩ := by
        subst hsep
        cases ab <;> cases av <;> simp [printVar, separate, Loop.put, e3, ht]
      simp only [e2, this, e4]
    · rw [t4, written, hsh]
      simp
  | node n S r ihS ih =>
    intro fuel i l db sep hs hp hd hv hl hn hok hlo hsep hf
    obtain ⟨fuel, rfl⟩ : ∃ m, fuel = m + 1 := ⟨fuel - 1, by omega⟩
    simp only [Forest.distinct, Bool.and_eq_true, decide_eq_true_eq] at hd
    simp only [Forest.allLeaves, Bool.and_eq_true] at hl
    simp only [Forest.allNodes, Bool.and_eq_true] at hn
    simp only [printable, Forest.allLeaves, Bool.and_eq_true] at hv
    simp only [Forest.size] at hf
    obtain ⟨p1, p2, p3, p4, p5⟩ := part_node hp hd.1.1
    obtain ⟨s0, e0, g0⟩ := hist_size hs
    obtain ⟨s1, e1, g1⟩ := hist_childName g0 p2
    obtain ⟨s3, e3, g3⟩ := hist_into g1 (n := n) hn.1.1 p4
    obtain ⟨d, out, ok, ab, av, lo, left, ln⟩ := l
    simp only at hok hlo hs hsep e0
    subst hok hlo
    obtain ⟨l2, e5, o5, t5, g5⟩ := ihS fuel 0 (Loop.new s3) _ [] g3 p5 hd.1.2 hv.1 hl.1 hn.1.2 rfl rfl rfl (by omega)
    obtain ⟨s6, e6, g6⟩ := hist_back db.item db.cur n g5
    obtain ⟨l4, e7, o7, t7, g7⟩ := ih fuel (i + 1)
      ⟨s6, out ++ sep ++ p.openBlock n ++ l2.out ++ p.closeBlock n, true, true, false, false, left, ln⟩ db p.blockSep
      g6 p3 hd.2 hv.2 hl.2 hn.2 rfl rfl rfl (by omega)
    refine ⟨l4, ?_, o7, ?_, g7⟩
    · rw [printLoop, e0]
      simp only
      rw [if_pos p1, e1]
      have ho : openNode p false n { separate p ⟨d, out, true, ab, av, false, left, ln⟩ with db := s3 } =
          some ⟨s3, out ++ sep ++ p.openBlock n, true, true, false, false, left, ln⟩ := by
        subst hsep
        cases ab <;> cases av <;> simp [openNode, separate, Loop.put]
      have hc : closeNode p n ⟨l2.db, out ++ sep ++ p.openBlock n ++ l2.out, l2.ok, true, false, false, left, ln⟩ =
          some ⟨s6, out ++ sep ++ p.openBlock n ++ l2.out ++ p.closeBlock n, true, true, false, false, left, ln⟩ := by
        simp only [closeNode, o5, if_true, Bool.false_eq_true, if_false, Loop.put, false_and, and_false, Loop.move, e6, Option.map_some, answered]
      simp only [e3, ho, if_true, e5, Option.map_some, hc, e7]
    · rw [t7, t5, written]
      simp [Loop.new]

/-! ### The document of a tree -/

variable {pr : Nat → B → List Char} {num : List Char → Bool}

theorem value_data (conv : Conv B) {v : Leaf B} (h : Spec.XmlPrint.goodLeaf pr num v = true) :
    (mkData pr v).value conv none = some (Spec.ConfigPrint.asText pr v) := by
  obtain ⟨ty, dims, cols, rows, data⟩ := v
  simp only [Spec.XmlPrint.goodLeaf, Bool.and_eq_true, decide_eq_true_eq] at h
  obtain ⟨⟨⟨h1, h2⟩, h3⟩, h4⟩ := h
  subst h1 h2 h3
  have ht : Config.typeIndex ['s', 't', 'r', 'i', 'n', 'g'] = 0 := by decide
  match data, h4 with
  | [.text s], _ =>
    simp [mkData, toPair, lit, Spec.ConfigDoc.Data.value, Spec.ConfigDoc.Data.regular, Spec.ConfigDoc.Data.rows, Spec.ConfigPrint.isText, ht,
      Config.elements_text, Spec.ConfigPrint.asText, Spec.ConfigPrint.elementText, Spec.ConfigDoc.Data.dims, Spec.ConfigDoc.elements,
      Spec.ConfigDoc.element, Spec.ConfigDoc.Data.cols, Spec.ConfigDoc.rowLits]
  | [.num b], _ =>
    simp [mkData, toPair, lit, Spec.ConfigDoc.Data.value, Spec.ConfigDoc.Data.regular, Spec.ConfigDoc.Data.rows, Spec.ConfigPrint.isText, ht,
      Config.elements_text, Spec.ConfigPrint.asText, Spec.ConfigPrint.elementText, Spec.ConfigDoc.Data.dims, Spec.ConfigDoc.elements,
      Spec.ConfigDoc.element, Spec.ConfigDoc.Data.cols, Spec.ConfigDoc.rowLits]

theorem doc_item (conv : Conv B) {F : Forest (Leaf B)} (hl : F.allLeaves (fun n v => Spec.XmlPrint.goodName num n && Spec.XmlPrint.goodLeaf pr num v) = true)
    (hf : F.full = true) (n : Name) (p : List Name) : (doc pr F).item conv n p = (F.map (Spec.ConfigPrint.asText pr)).at n p := by
  induction F generalizing n p with
  | nil => cases hf
  | leaf m v r ih =>
    simp only [Forest.allLeaves, Bool.and_eq_true] at hl
    have hv := value_data conv hl.1.2
    rcases full_leaf (pr := pr) hf with ⟨rfl, e⟩ | ⟨hr, e⟩
    · rw [e, Stmts.item]
      simp only [Forest.map, Forest.at, Stmt.name, Stmt.item, hv, Option.map_some]
    · rw [e, Stmts.item, ih (by simpa using hl.2) hr]
      simp only [Forest.map, Forest.at, Stmt.name, Stmt.item, hv, Option.map_some]
  | node m S r ihS ih =>
    simp only [Forest.allLeaves, Bool.and_eq_true] at hl
    obtain ⟨hs, hr⟩ := full_node (pr := pr) hf
    have hsub : (Stmt.block m (doc pr S)).item conv p = (match p with
      | [] => some (.node (S.map (Spec.ConfigPrint.asText pr)).names)
      | k :: q => (S.map (Spec.ConfigPrint.asText pr)).at k q) := by
      cases p with
      | nil => rw [Stmt.item, doc_names hs, map_names]
      | cons k q => rw [Stmt.item]; exact ihS hl.1 hs k q
    rcases hr with ⟨rfl, e⟩ | ⟨hr, e⟩
    · rw [e, Stmts.item, hsub]
      by_cases hm : m = n <;> cases p <;> simp [Forest.map, Forest.at, Stmt.name, hm]
    · rw [e, Stmts.item, ih hl.2 hr, hsub]
      by_cases hm : m = n <;> cases p <;> simp [Forest.map, Forest.at, Stmt.name, hm]

theorem doc_tree (conv : Conv B) {F : Forest (Leaf B)}
    (hl : F.allLeaves (fun n v => Spec.XmlPrint.goodName num n && Spec.XmlPrint.goodLeaf pr num v) = true)
    (hf : F.full = true) : (doc pr F).tree conv = (F.map (Spec.ConfigPrint.asText pr)).item := by
  funext p
  cases p with
  | nil => rw [Stmts.tree, Forest.item, doc_names hf, map_names]
  | cons n p => rw [Stmts.tree, Forest.item]; exact doc_item conv hl hf n p

theorem good_nameOk {n : Name} (h : Spec.XmlPrint.goodName num n = true) : nameOk n = true := by
  simp only [Spec.XmlPrint.goodName, Bool.and_eq_true] at h
  exact h.1.1.1

theorem doc_ok (conv : Conv B) {F : Forest (Leaf B)}
    (hl : F.allLeaves (fun n v => Spec.XmlPrint.goodName num n && Spec.XmlPrint.goodLeaf pr num v) = true)
    (hn : F.allNodes (Spec.XmlPrint.goodName num) = true) (hf : F.full = true) (hd : F.distinct = true) : (doc pr F).ok conv = true := by
  have nm : ∀ n, Spec.XmlPrint.goodName num n = true → nameOk n = true := fun n h => good_nameOk h
  induction F with
  | nil => cases hf
  | leaf n v r ih =>
    simp only [Forest.allLeaves, Bool.and_eq_true] at hl
    simp only [Forest.distinct, Bool.and_eq_true, decide_eq_true_eq] at hd
    have hv := value_data conv hl.1.2
    rcases full_leaf (pr := pr) hf with ⟨rfl, e⟩ | ⟨hr, e⟩
    · rw [e]; simp [Stmts.ok, Stmt.ok, nm n hl.1.1, hv]
    · rw [e]
      simp [Stmts.ok, Stmt.ok, nm n hl.1.1, hv, ih (by simpa using hl.2) hn hr hd.2, doc_names hr, Stmt.name, hd.1]
  | node n S r ihS ih =>
    simp only [Forest.allLeaves, Bool.and_eq_true] at hl
    simp only [Forest.allNodes, Bool.and_eq_true] at hn
    simp only [Forest.distinct, Bool.and_eq_true, decide_eq_true_eq] at hd
    obtain ⟨hs, hr⟩ := full_node (pr := pr) hf
    have h1 := ihS hl.1 hn.1.2 hs hd.1.2
    rcases hr with ⟨rfl, e⟩ | ⟨hr, e⟩
    · rw [e]; simp [Stmts.ok, Stmt.ok, nm n hn.1.1, h1]
    · rw [e]
      simp [Stmts.ok, Stmt.ok, nm n hn.1.1, h1, ih hl.2 hn.2 hr hd.2, doc_names hr, Stmt.name, hd.1]

theorem doc_depth {F : Forest (Leaf B)} (hf : F.full = true) : (doc pr F).depth ≤ depth F := by
  induction F with
  | nil => cases hf
  | leaf n v r ih =>
    rcases full_leaf (pr := pr) hf with ⟨rfl, e⟩ | ⟨hr, e⟩
    · rw [e]; simp [Stmts.depth, Stmt.depth]
    · rw [e]; have := ih hr; simp [Stmts.depth, Stmt.depth, depth]; omega
  | node n S r ihS ih =>
    obtain ⟨hs, hr⟩ := full_node (pr := pr) hf
    have h1 := ihS hs
    rcases hr with ⟨rfl, e⟩ | ⟨hr, e⟩
    · rw [e]; simp [Stmts.depth, Stmt.depth, depth]; omega
    · rw [e]; have := ih hr; simp [Stmts.depth, Stmt.depth, depth]; omega

/-! ### The characters -/

open Verif.Spec.XmlText
open Verif.Spec.XmlDoc
open Verif.Spec.Lexer (QChar)

def elementX (pr : Nat → B → List Char) (v : Leaf B) : XPiece :=
  match v.data.head? with
  | some (.num b) => .bare (pr v.ty b)
  | some (.text s) => .quoted (s.map .raw)
  | none => .bare []

def xpieces (pr : Nat → B → List Char) : Forest (Leaf B) → List XPiece
  | .nil => []
  | .leaf n v r => [.sign '<', .bare n, .sign '>', elementX pr v, .sign '<', .sign '/', .bare n, .sign '>'] ++ xpieces pr r
  | .node n s r => [.sign '<', .bare n, .sign '>'] ++ xpieces pr s ++ [.sign '<', .sign '/', .bare n, .sign '>'] ++ xpieces pr r

theorem element_shown {v : Leaf B} (h : Spec.XmlPrint.goodLeaf pr num v = true) :
    (xmlPrinter pr).value v = some (true, (elementX pr v).text) := by
  show jsonValue pr v = _
  obtain ⟨ty, dims, cols, rows, data⟩ := v
  simp only [Spec.XmlPrint.goodLeaf, Bool.and_eq_true, decide_eq_true_eq] at h
  obtain ⟨⟨⟨h1, h2⟩, h3⟩, h4⟩ := h
  subst h1 h2 h3
  match data, h4 with
  | [.text s], _ =>
    have := Verif.Config.text_element (pr := pr) ty (.text s)
    simp only [jsonValue, elementX]
    simp [this]
    simp [Verif.Config.elementPiece, Spec.Lexer.Piece.text, XPiece.text]
  | [.num b], _ =>
    have := Verif.Config.text_element (pr := pr) ty (.num b)
    simp only [jsonValue, elementX]
    simp [this]
    simp [Verif.Config.elementPiece, Spec.Lexer.Piece.text, XPiece.text]

theorem xtext {F : Forest (Leaf B)} (hl : F.allLeaves (fun n v => Spec.XmlPrint.goodName num n && Spec.XmlPrint.goodLeaf pr num v) = true) :
    written (xmlPrinter pr) [] F = Spec.XmlText.text (xpieces pr F) := by
  have hvs : (xmlPrinter pr).varSep = [] := rfl
  have hbs : (xmlPrinter pr).blockSep = [] := rfl
  induction F with
  | nil => rfl
  | leaf n v r ih =>
    simp only [Forest.allLeaves, Bool.and_eq_true] at hl
    rw [written, hvs, ih (by simpa using hl.2), shown, element_shown hl.1.2]
    simp [xpieces, Spec.XmlText.text, XPiece.text, xmlPrinter]
  | node n S r ihS ih =>
    simp only [Forest.allLeaves, Bool.and_eq_true] at hl
    rw [written, hbs, ih hl.2, ihS hl.1]
    simp [xpieces, Spec.XmlText.text, XPiece.text, xmlPrinter]

theorem name_facts {n : Name} (h : Spec.XmlPrint.goodName num n = true) : (XPiece.bare n).ok = true ∧ n.head? ≠ some '!' ∧
    XPiece.token num (.bare n) = some (.string, n) := by
  simp only [Spec.XmlPrint.goodName, Bool.and_eq_true, decide_eq_true_eq, Bool.not_eq_true'] at h
  refine ⟨h.1.1.2, h.1.2, ?_⟩
  simp only [XPiece.token, h.2]
  simp

theorem element_facts {v : Leaf B} (h : Spec.XmlPrint.goodLeaf pr num v = true) : (elementX pr v).ok = true ∧
    (∀ c, (elementX pr v).before (some (.sign c)) = true) ∧ XPiece.before (.sign '>') (some (elementX pr v)) = true ∧
    XPiece.token num (elementX pr v) = some (Spec.XmlText.token (litWord (toPair (v.data.map (lit pr v.ty))).1)) := by
  obtain ⟨ty, dims, cols, rows, data⟩ := v
  simp only [Spec.XmlPrint.goodLeaf, Bool.and_eq_true, decide_eq_true_eq] at h
  obtain ⟨⟨⟨h1, h2⟩, h3⟩, h4⟩ := h
  match data, h4 with
  | [.text s], h4 =>
    refine ⟨?_, fun c => ?_, ?_, ?_⟩
    · simp only [Spec.ConfigPrint.plainText] at h4
      simp only [elementX, List.head?_cons, XPiece.ok, List.all_map]
      rw [List.all_eq_true] at h4 ⊢
      intro c hc
      have := h4 c hc
      simpa [QChar.ok] using this
    · simp [elementX, XPiece.before]
    · simp [elementX, XPiece.before]
    · simp [elementX, XPiece.token, toPair, lit, Spec.ConfigPrint.isText, litWord, Spec.XmlText.token, Spec.ConfigPrint.elementText, raw_value]
  | [.num b], h4 =>
    simp only [Bool.and_eq_true] at h4
    refine ⟨?_, fun c => ?_, ?_, ?_⟩
    · simpa [elementX] using h4.1.1
    · simp [elementX, XPiece.before]
    · simp [elementX, XPiece.before]
    · simp [elementX, XPiece.token, toPair, lit, Spec.ConfigPrint.isText, litWord, Spec.XmlText.token, Spec.ConfigPrint.elementText, h4.1.2, h4.2]

theorem closeTag_ok {n : Name} (h : Spec.XmlPrint.goodName num n = true) {r : List XPiece} (hr : Spec.XmlText.ok r = true) :
    Spec.XmlText.ok (.sign '<' :: .sign '/' :: .bare n :: .sign '>' :: r) = true := by
  obtain ⟨a, b, _⟩ := name_facts h
  have s1 : ∀ o, XPiece.before (.sign '>') o = true := fun o => by cases o with | none => rfl | some p => cases p <;> rfl
  simp only [Spec.XmlText.ok, a, hr, s1]
  simp [XPiece.ok, signs, XPiece.before]

theorem openTag_ok {n : Name} (h : Spec.XmlPrint.goodName num n = true) {r : List XPiece} (hr : Spec.XmlText.ok r = true) :
    Spec.XmlText.ok (.sign '<' :: .bare n :: .sign '>' :: r) = true := by
  obtain ⟨a, b, _⟩ := name_facts h
  have s1 : ∀ o, XPiece.before (.sign '>') o = true := fun o => by cases o with | none => rfl | some p => cases p <;> rfl
  simp only [Spec.XmlText.ok, a, hr, s1]
  simp [XPiece.ok, signs, XPiece.before, b]

theorem xok {F : Forest (Leaf B)} (hl : F.allLeaves (fun n v => Spec.XmlPrint.goodName num n && Spec.XmlPrint.goodLeaf pr num v) = true)
    (hn : F.allNodes (Spec.XmlPrint.goodName num) = true) : ∀ {q : List XPiece}, Spec.XmlText.ok q = true → Spec.XmlText.ok (xpieces pr F ++ q) = true := by
  induction F with
  | nil => intro q h; exact h
  | leaf n v r ih =>
    intro q h
    simp only [Forest.allLeaves, Bool.and_eq_true] at hl
    simp only [Forest.allNodes] at hn
    obtain ⟨a, b, _, _⟩ := element_facts hl.1.2
    have h1 := closeTag_ok hl.1.1 (ih (by simpa using hl.2) hn h)
    have h2 : Spec.XmlText.ok (elementX pr v :: .sign '<' :: .sign '/' :: .bare n :: .sign '>' :: (xpieces pr r ++ q)) = true := by
      rw [Spec.XmlText.ok, a, h1, List.head?_cons, b]; rfl
    have := openTag_ok hl.1.1 h2
    simpa [xpieces] using this
  | node n S r ihS ih =>
    intro q h
    simp only [Forest.allLeaves, Bool.and_eq_true] at hl
    simp only [Forest.allNodes, Bool.and_eq_true] at hn
    have h1 := openTag_ok hn.1.1 (ihS hl.1 hn.1.2 (closeTag_ok hn.1.1 (ih hl.2 hn.2 h)))
    simpa [xpieces] using h1

theorem xtok_append (a b : List XPiece) : Spec.XmlText.tokens num (a ++ b) = Spec.XmlText.tokens num a ++ Spec.XmlText.tokens num b := by
  simp [Spec.XmlText.tokens, List.filterMap_append]

theorem xtok_close {n : Name} (h : Spec.XmlPrint.goodName num n = true) :
    Spec.XmlText.tokens num [.sign '<', .sign '/', .bare n, .sign '>'] = (closeTag n).map Spec.XmlText.token := by
  simp only [Spec.XmlText.tokens, List.filterMap_cons, (name_facts h).2.2]
  rfl

theorem xtok_open {n : Name} (h : Spec.XmlPrint.goodName num n = true) :
    Spec.XmlText.tokens num [.sign '<', .bare n, .sign '>'] = (openTag n).map Spec.XmlText.token := by
  simp only [Spec.XmlText.tokens, List.filterMap_cons, (name_facts h).2.2]
  rfl

theorem xsays {F : Forest (Leaf B)} (hl : F.allLeaves (fun n v => Spec.XmlPrint.goodName num n && Spec.XmlPrint.goodLeaf pr num v) = true)
    (hn : F.allNodes (Spec.XmlPrint.goodName num) = true) (hf : F.full = true) :
    Spec.XmlText.tokens num (xpieces pr F) = (closeAll (doc pr F)).words.map Spec.XmlText.token := by
  have hleaf : ∀ (n : Name) (v : Leaf B), Spec.XmlPrint.goodName num n = true → Spec.XmlPrint.goodLeaf pr num v = true →
      Spec.XmlText.tokens num ([.sign '<', .bare n, .sign '>', elementX pr v, .sign '<', .sign '/', .bare n, .sign '>']) =
        (close (.leaf n none (mkData pr v))).words.map Spec.XmlText.token := by
    intro n v h1 h2
    have hm : mkData pr v = .scalar (toPair (v.data.map (lit pr v.ty))).1 := by
      simp only [Spec.XmlPrint.goodLeaf, Bool.and_eq_true, decide_eq_true_eq] at h2
      rw [mkData, h2.1.1.1, if_neg (by decide), if_neg (by decide)]
    have e : ([.sign '<', .bare n, .sign '>', elementX pr v, .sign '<', .sign '/', .bare n, .sign '>'] : List XPiece) =
      [.sign '<', .bare n, .sign '>'] ++ ([elementX pr v] ++ [.sign '<', .sign '/', .bare n, .sign '>']) := rfl
    rw [e, xtok_append, xtok_append, xtok_open h1, xtok_close h1, hm, close, XStmt.words, dataWords, castWords]
    simp [Spec.XmlText.tokens, (element_facts h2).2.2.2]
  induction F with
  | nil => cases hf
  | leaf n v r ih =>
    simp only [Forest.allLeaves, Bool.and_eq_true] at hl
    simp only [Forest.allNodes] at hn
    rw [xpieces, xtok_append, hleaf n v hl.1.1 hl.1.2]
    rcases full_leaf (pr := pr) hf with ⟨rfl, e⟩ | ⟨hr, e⟩
    · rw [e]; simp [xpieces, Spec.XmlText.tokens, closeAll, XStmts.words]
    · rw [e, ih (by simpa using hl.2) hn hr]; simp [closeAll, XStmts.words]
  | node n S r ihS ih =>
    simp only [Forest.allLeaves, Bool.and_eq_true] at hl
    simp only [Forest.allNodes, Bool.and_eq_true] at hn
    obtain ⟨hs, hr⟩ := full_node (pr := pr) hf
    rw [xpieces, xtok_append, xtok_append, xtok_append, xtok_open hn.1.1, xtok_close hn.1.1, ihS hl.1 hn.1.2 hs]
    rcases hr with ⟨rfl, e⟩ | ⟨hr, e⟩
    · rw [e]; simp [xpieces, Spec.XmlText.tokens, closeAll, close, XStmt.words, XStmts.words]
    · rw [e, ih hl.2 hn.2 hr]; simp [closeAll, close, XStmt.words, XStmts.words]

end Verif.Xml
