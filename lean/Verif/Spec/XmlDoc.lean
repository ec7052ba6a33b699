import Verif.Spec.ConfigDoc
/-! ## Specification: configurations in the XML language

A statement is `<name>value</name>` or `<name>statements</name>`.  The closing name is kept apart: `matched` says that all
closing names are those of the opening tags. `plain` is the document, without the closing names. -/
namespace Verif.Spec.XmlDoc
open Verif.ConfigDb (Name)
open Verif.Parser (Tok)
open Verif.Spec.ConfigDoc (Lit Data Stmt Stmts rowLits)

/-- The words of the XML language. -/
inductive XWord
  | str (s : List Char)
  | num (s : List Char)
  | lt | gt | slash | lp | rp | lb | rb
deriving DecidableEq

/-- `XMLParser.cpp:86-88`: the tokens of the words. -/
def xtok : XWord → Tok
  | .lt => ⟨1, ['<']⟩
  | .str s => ⟨2, s⟩
  | .gt => ⟨3, ['>']⟩
  | .slash => ⟨4, ['/']⟩
  | .lp => ⟨5, ['(']⟩
  | .rp => ⟨6, [')']⟩
  | .lb => ⟨7, ['{']⟩
  | .rb => ⟨8, ['}']⟩
  | .num s => ⟨9, s⟩

mutual
/-- A statement, with the name of its closing tag. -/
inductive XStmt
  | leaf (name : Name) (cast : Option (List Char)) (d : Data) (closing : Name)
  | block (name : Name) (body : XStmts) (closing : Name)
/-- One or more statements. -/
inductive XStmts
  | one (s : XStmt)
  | more (s : XStmt) (ss : XStmts)
end

/-! ### Notation -/

def litWord (l : Lit) : XWord := if l.isNum then .num l.text else .str l.text

/-- A row between braces. -/
def rowWords (r : Lit × List Lit) : List XWord := .lb :: ((rowLits r).map litWord ++ [.rb])

def dataWords : Data → List XWord
  | .scalar l => [litWord l]
  | .vector l ls => rowWords (l, ls)
  | .matrix r rs => .lb :: ((r :: rs).flatMap rowWords ++ [.rb])

def castWords : Option (List Char) → List XWord
  | none => []
  | some t => [.lp, .str t, .rp]

/-- `<name>` -/
def openTag (n : Name) : List XWord := [.lt, .str n, .gt]
/-- `</name>` -/
def closeTag (n : Name) : List XWord := [.lt, .slash, .str n, .gt]

mutual
def XStmt.words : XStmt → List XWord
  | .leaf n c d m => openTag n ++ castWords c ++ dataWords d ++ closeTag m
  | .block n b m => openTag n ++ b.words ++ closeTag m
def XStmts.words : XStmts → List XWord
  | .one s => s.words
  | .more s ss => s.words ++ ss.words
end

mutual
/-- The statement without the closing name. -/
def XStmt.plain : XStmt → Stmt
  | .leaf n c d _ => .leaf n c d
  | .block n b _ => .block n b.plain
def XStmts.plain : XStmts → Stmts
  | .one s => .one s.plain
  | .more s ss => .more s.plain ss.plain
end

mutual
/-- Every closing name is that of the opening tag. -/
def XStmt.matched : XStmt → Bool
  | .leaf n _ _ m => decide (n = m)
  | .block n b m => decide (n = m) && b.matched
def XStmts.matched : XStmts → Bool
  | .one s => s.matched
  | .more s ss => s.matched && ss.matched
end

mutual
/-- A document with the right closing names. -/
def close : Stmt → XStmt
  | .leaf n c d => .leaf n c d n
  | .block n b => .block n (closeAll b) n
def closeAll : Stmts → XStmts
  | .one s => .one (close s)
  | .more s ss => .more (close s) (closeAll ss)
end

end Verif.Spec.XmlDoc
