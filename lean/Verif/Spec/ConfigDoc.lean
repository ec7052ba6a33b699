import Verif.Spec.ConfigDb
import Verif.Model.ConfigParser
/-! ## Specification: configurations as documents

A document is a non-empty list of statements.  A statement gives a value to a name, or opens a block with a name.  A
value is a literal, a vector of literals or a matrix of literals, with or without the name of a type.

`words` is how a document is written in the standard language, `apply` is what it does to a tree, and `item` is the
tree that a document with distinct names describes. -/
namespace Verif.Spec.ConfigDoc
open Verif.ConfigDb (Name Op Out)
open Verif.Spec.ConfigDb (Item Db)
open Verif.Parser (Tok)
open Verif.Config (Leaf Val Conv typeIndex)

/-- The words of the standard language. -/
inductive Word
  | str (s : List Char)
  | num (s : List Char)
  | eq | lp | rp | bar | lb | rb
deriving DecidableEq

/-- `StandardParser.cpp:91-101`: the tokens of the words. -/
def tok : Word → Tok
  | .str s => ⟨1, s⟩
  | .num s => ⟨8, s⟩
  | .eq => ⟨2, ['=']⟩
  | .lp => ⟨3, ['(']⟩
  | .rp => ⟨4, [')']⟩
  | .bar => ⟨5, ['|']⟩
  | .lb => ⟨6, ['{']⟩
  | .rb => ⟨7, ['}']⟩

/-- A literal: a string or a number, with its text. -/
structure Lit where
  isNum : Bool
  text : List Char
deriving DecidableEq

/-- A value. -/
inductive Data
  | scalar (l : Lit)
  | vector (l : Lit) (ls : List Lit)
  | matrix (row : Lit × List Lit) (rows : List (Lit × List Lit))
deriving DecidableEq

mutual
/-- A statement. -/
inductive Stmt
  | leaf (name : Name) (cast : Option (List Char)) (d : Data)
  | block (name : Name) (body : Stmts)
/-- One or more statements. -/
inductive Stmts
  | one (s : Stmt)
  | more (s : Stmt) (ss : Stmts)
end

/-! ### Notation -/

def Lit.word (l : Lit) : Word := if l.isNum then .num l.text else .str l.text

/-- The literals of a row. -/
def rowLits (r : Lit × List Lit) : List Lit := r.1 :: r.2

/-- A row between braces. -/
def rowWords (r : Lit × List Lit) : List Word := .lb :: ((rowLits r).map Lit.word ++ [.rb])

def Data.words : Data → List Word
  | .scalar l => [l.word]
  | .vector l ls => rowWords (l, ls)
  | .matrix r rs => .lb :: ((r :: rs).flatMap rowWords ++ [.rb])

def castWords : Option (List Char) → List Word
  | none => []
  | some t => [.lp, .str t, .rp]

mutual
def Stmt.words : Stmt → List Word
  | .leaf n c d => .str n :: .eq :: (castWords c ++ d.words)
  | .block n b => .str n :: .eq :: .lb :: (b.words ++ [.rb])
def Stmts.words : Stmts → List Word
  | .one s => s.words
  | .more s ss => s.words ++ ss.words
end

mutual
/-- How deep the blocks are nested. -/
def Stmt.depth : Stmt → Nat
  | .leaf _ _ _ => 0
  | .block _ b => b.depth + 1
def Stmts.depth : Stmts → Nat
  | .one s => s.depth
  | .more s ss => max s.depth ss.depth
end

/-! ### Values -/

variable {B : Type} (conv : Conv B)

/-- The element written by a literal, as a value of the type number `ti`: 0 is the type of strings, 9, 12 and 13 cannot
be used. -/
def element (ti : Nat) (l : Lit) : Option (Val B) :=
  if ti = 0 then some (.text l.text)
  else if ti = 9 ∨ 12 ≤ ti then none
  else (conv ti l.text).map .num

def elements (ti : Nat) : List Lit → Option (List (Val B))
  | [] => some []
  | l :: ls => match element conv ti l, elements ti ls with
    | some x, some xs => some (x :: xs)
    | _, _ => none

def Data.rows : Data → List (List Lit)
  | .scalar l => [[l]]
  | .vector l ls => [l :: ls]
  | .matrix r rs => (r :: rs).map rowLits

/-- Number of dimensions. -/
def Data.dims : Data → Nat
  | .scalar _ => 0
  | .vector _ _ => 1
  | .matrix _ _ => 2

/-- The number of columns: the length of the first row. -/
def Data.cols (d : Data) : Nat := (d.rows.headD []).length

/-- All rows have the same length, and all literals are strings or all are numbers. -/
def Data.regular (d : Data) : Bool :=
  d.rows.all (fun r => decide (r.length = d.cols)) &&
  (d.rows.flatten.all (·.isNum) || d.rows.flatten.all (!·.isNum))

/-- The value, if it has one. -/
def Data.value (cast : Option (List Char)) (d : Data) : Option (Leaf B) :=
  let ti := typeIndex (cast.getD "string".toList)
  if d.regular then (elements conv ti d.rows.flatten).map fun xs => ⟨ti, d.dims, d.cols, d.rows.length, xs⟩ else none

/-! ### Effect -/

/-- A call that must succeed. -/
def must (r : Out (Leaf B) × Db (Leaf B)) : Option (Db (Leaf B)) :=
  match r.1 with
  | .flag true => some r.2
  | _ => none

mutual
/-- What a statement does at the current node of a tree; `none` if it is refused. -/
def Stmt.apply : Stmt → Db (Leaf B) → Option (Db (Leaf B))
  | .leaf n c d, db => (d.value conv c).bind fun v => must (Spec.ConfigDb.step db (.write n v))
  | .block n b, db => (must (Spec.ConfigDb.step db (.createRelative n))).bind fun db1 =>
      (b.apply db1).bind fun db2 => must (Spec.ConfigDb.step db2 (.moveToAncestor 1))
def Stmts.apply : Stmts → Db (Leaf B) → Option (Db (Leaf B))
  | .one s, db => s.apply db
  | .more s ss, db => (s.apply db).bind fun db1 => ss.apply db1
end

/-! ### The tree described -/

def Stmt.name : Stmt → Name
  | .leaf n _ _ => n
  | .block n _ => n

def Stmts.names : Stmts → List Name
  | .one s => [s.name]
  | .more s ss => s.name :: ss.names

mutual
/-- What a statement describes at a path below its name. -/
def Stmt.item : Stmt → List Name → Option (Item (Leaf B))
  | .leaf _ c d, p => if p = [] then (d.value conv c).map .leaf else none
  | .block _ b, p => match p with
    | [] => some (.node b.names)
    | n :: q => b.item n q
/-- What statements describe at the path `n/p`. -/
def Stmts.item : Stmts → Name → List Name → Option (Item (Leaf B))
  | .one s, n, p => if s.name = n then s.item p else none
  | .more s ss, n, p => if s.name = n then s.item p else ss.item n p
end

/-- The tree described by a document. -/
def Stmts.tree (d : Stmts) : List Name → Option (Item (Leaf B))
  | [] => some (.node d.names)
  | n :: p => d.item conv n p

/-- The tree `item'` is the tree `item` with what the document `d` describes added at the node `p`. -/
def Added (item : List Name → Option (Item (Leaf B))) (p : List Name) (d : Stmts)
    (item' : List Name → Option (Item (Leaf B))) : Prop :=
  item' p = some (.node (Spec.ConfigDb.children item p ++ d.names)) ∧
  (∀ n r, item' (p ++ n :: r) = if n ∈ d.names then d.item conv n r else item (p ++ n :: r)) ∧
  ∀ q, ¬ p <+: q → item' q = item q

/-- A name: not empty, without dots and zeros. -/
def nameOk (n : Name) : Bool := decide (n ≠ []) && decide (n.length < 2 ^ 32) && !n.contains '\x00' && !n.contains '.'

mutual
/-- Names are names, those of the same block differ, and values are values. -/
def Stmt.ok : Stmt → Bool
  | .leaf n c d => nameOk n && (d.value conv c).isSome
  | .block n b => nameOk n && b.ok
def Stmts.ok : Stmts → Bool
  | .one s => s.ok
  | .more s ss => s.ok && ss.ok && decide (s.name ∉ ss.names)
end

/-- A name without dots and zeros. -/
def simpleName (n : Name) : Bool := decide (n.length < 2 ^ 32) && !n.contains '\x00' && !n.contains '.'

mutual
/-- The names of the blocks have no dots and no zeros. -/
def Stmt.blockNames : Stmt → Bool
  | .leaf _ _ _ => true
  | .block n b => simpleName n && b.blockNames
def Stmts.blockNames : Stmts → Bool
  | .one s => s.blockNames
  | .more s ss => s.blockNames && ss.blockNames
end

/-- At no point of the text are more than `k` braces open. -/
def Nest (k : Nat) (ws : List Word) : Prop := ∀ p, p <+: ws → p.count .lb ≤ p.count .rb + k

end Verif.Spec.ConfigDoc
