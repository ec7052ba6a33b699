import Verif.Spec.ConfigDoc
/-! ## Specification: configurations written in the JSON language

A statement gives a value to a name, opens a block with a name, or opens a list of blocks with a name; braces may be put
around statements without a name (as those around a whole JSON text).  Commas are separators, and are not words.

`words` is how a document is written, and `plain` is the configuration it stands for: the blocks of the list `n` are the
blocks `n[0]`, `n[1]`, ..., and braces without a name have no effect. -/
namespace Verif.Spec.JsonDoc
open Verif.ConfigDb (Name)
open Verif.Parser (Tok)
open Verif.Spec.ConfigDoc

/-- The words of the JSON language. -/
inductive JWord
  | str (s : List Char)
  | num (s : List Char)
  | colon | lp | rp | lbk | rbk | lbr | rbr
deriving DecidableEq

/-- `JsonParser.cpp:99-110`: the tokens of the words. -/
def jtok : JWord → Tok
  | .str s => ⟨1, s⟩
  | .num s => ⟨9, s⟩
  | .colon => ⟨2, [':']⟩
  | .lp => ⟨3, ['(']⟩
  | .rp => ⟨4, [')']⟩
  | .lbk => ⟨5, ['[']⟩
  | .rbk => ⟨6, [']']⟩
  | .lbr => ⟨7, ['{']⟩
  | .rbr => ⟨8, ['}']⟩

mutual
/-- A statement. -/
inductive JStmt
  | leaf (name : Name) (cast : Option (List Char)) (d : Data)
  | block (name : Name) (body : JStmts)
  | array (name : Name) (bodies : JBlocks)
  | braces (body : JStmts)
/-- One or more statements. -/
inductive JStmts
  | one (s : JStmt)
  | more (s : JStmt) (ss : JStmts)
/-- One or more blocks of a list. -/
inductive JBlocks
  | one (b : JStmts)
  | more (b : JStmts) (bs : JBlocks)
end

/-! ### Notation -/

def litWord (l : Lit) : JWord := if l.isNum then .num l.text else .str l.text

/-- A row between brackets. -/
def rowJ (r : Lit × List Lit) : List JWord := .lbk :: ((r.1 :: r.2).map litWord ++ [.rbk])

def dataJ : Data → List JWord
  | .scalar l => [litWord l]
  | .vector l ls => rowJ (l, ls)
  | .matrix r rs => .lbk :: ((r :: rs).flatMap rowJ ++ [.rbk])

def castJ : Option (List Char) → List JWord
  | none => []
  | some t => [.lp, .str t, .rp]

mutual
def JStmt.words : JStmt → List JWord
  | .leaf n c d => .str n :: .colon :: (castJ c ++ dataJ d)
  | .block n b => .str n :: .colon :: .lbr :: (b.words ++ [.rbr])
  | .array n bs => .str n :: .colon :: .lbk :: (bs.words ++ [.rbk])
  | .braces b => .lbr :: (b.words ++ [.rbr])
def JStmts.words : JStmts → List JWord
  | .one s => s.words
  | .more s ss => s.words ++ ss.words
def JBlocks.words : JBlocks → List JWord
  | .one b => .lbr :: (b.words ++ [.rbr])
  | .more b bs => .lbr :: (b.words ++ .rbr :: bs.words)
end

/-! ### Meaning -/

/-- One configuration after another. -/
def cat : Stmts → Stmts → Stmts
  | .one s, t => .more s t
  | .more s ss, t => .more s (cat ss t)

/-- The name of the block number `i` of the list `n`. -/
def blockName (n : Name) (i : Nat) : Name := n ++ ['['] ++ Nat.toDigits 10 i ++ [']']

mutual
/-- The configuration that a statement stands for. -/
def JStmt.plain : JStmt → Stmts
  | .leaf n c d => .one (.leaf n c d)
  | .block n b => .one (.block n b.plain)
  | .array n bs => bs.plain n 0
  | .braces b => b.plain
def JStmts.plain : JStmts → Stmts
  | .one s => s.plain
  | .more s ss => cat s.plain ss.plain
/-- The blocks of the list `n`, from the number `i` on. -/
def JBlocks.plain (n : Name) (i : Nat) : JBlocks → Stmts
  | .one b => .one (.block (blockName n i) b.plain)
  | .more b bs => .more (.block (blockName n i) b.plain) (bs.plain n (i + 1))
end

mutual
/-- How deep the blocks are nested; a list counts as two. -/
def JStmt.depth : JStmt → Nat
  | .leaf _ _ _ => 0
  | .block _ b => b.depth + 1
  | .array _ bs => bs.depth + 2
  | .braces b => b.depth + 1
def JStmts.depth : JStmts → Nat
  | .one s => s.depth
  | .more s ss => max s.depth ss.depth
def JBlocks.depth : JBlocks → Nat
  | .one b => b.depth
  | .more b bs => max b.depth bs.depth
end

def JBlocks.count : JBlocks → Nat
  | .one _ => 1
  | .more _ bs => bs.count + 1

mutual
/-- The names of the lists are names; those of lists inside lists are not "Idx"; lists have at most 2^32 blocks. -/
def JStmt.listsOk (inside : Bool) : JStmt → Bool
  | .leaf _ _ _ => true
  | .block _ b => b.listsOk inside
  | .array n bs => nameOk n && !(inside && decide (n = "Idx".toList)) && decide (bs.count ≤ 2 ^ 32) && bs.listsOk
  | .braces b => b.listsOk inside
def JStmts.listsOk (inside : Bool) : JStmts → Bool
  | .one s => s.listsOk inside
  | .more s ss => s.listsOk inside && ss.listsOk inside
def JBlocks.listsOk : JBlocks → Bool
  | .one b => b.listsOk true
  | .more b bs => b.listsOk true && bs.listsOk
end

end Verif.Spec.JsonDoc
