import Verif.Spec.Rpn
/-!
# Expressions: how a text is read, and what it means

Independent of any parser: the words of the language, the expression trees, the reading of a text as a tree
(`Reads`, the textbook left-recursive grammar), the value of a tree, and its translation to reverse Polish notation.
-/
namespace Verif.MathExpr

inductive BinOp
  | or | and | xor
  | gt | lt | ge | le | eq | ne
  | add | sub
  | mul | div
deriving DecidableEq, Repr

/-- The words. -/
inductive Word
  | str (s : String)
  | num (s : String)
  | op (o : BinOp)
  | bang | assign | semi | comma | lp | rp
deriving DecidableEq, Repr

inductive Expr
  | var (x : String)
  | num (n : String)
  | numOf (ty n : String)
  | cast (ty : String) (e : Expr)
  | neg (e : Expr)
  | pos (e : Expr)
  | not (e : Expr)
  | bin (o : BinOp) (l r : Expr)
  | call (f : String) (args : List Expr)

/-- From the weakest binding to the strongest. -/
inductive Level
  | logic | comparison | sum | product | unary | cast | call | primary
deriving DecidableEq, Repr

def Level.next : Level → Level
  | .logic => .comparison
  | .comparison => .sum
  | .sum => .product
  | .product => .unary
  | .unary => .cast
  | .cast => .call
  | .call => .primary
  | .primary => .primary

def BinOp.level : BinOp → Level
  | .or | .and | .xor => .logic
  | .gt | .lt | .ge | .le | .eq | .ne => .comparison
  | .add | .sub => .sum
  | .mul | .div => .product

/-- The signs of the operators: not usable as names of functions. -/
def opTexts : List String := ["&&", "||", "^", "==", "!=", ">", "<", ">=", "<=", "+", "-", "*", "/", "!"]

mutual
/-- `Reads k ws e d`: the words `ws` are an expression of level `k`, read as the tree `e`, with parentheses nested
`d` deep.  Left operands may be of the same level, right operands bind stronger: operators of a level associate
to the left. -/
inductive Reads : Level → List Word → Expr → Nat → Prop
  | bin (o : BinOp) {ls rs l r dl dr} (hl : Reads o.level ls l dl) (hr : Reads o.level.next rs r dr) :
      Reads o.level (ls ++ .op o :: rs) (.bin o l r) (max dl dr)
  | up (k : Level) {ws e d} (h : Reads k.next ws e d) : Reads k ws e d
  | neg {ws e d} (h : Reads .cast ws e d) : Reads .unary (.op .sub :: ws) (.neg e) d
  | pos {ws e d} (h : Reads .cast ws e d) : Reads .unary (.op .add :: ws) (.pos e) d
  | not {ws e d} (h : Reads .cast ws e d) : Reads .unary (.bang :: ws) (.not e) d
  | cast (t : String) {ws e d} (h : Reads .call ws e d) : Reads .cast (.lp :: .str t :: .rp :: ws) (.cast t e) d
  | numOf (t n : String) : Reads .cast [.lp, .str t, .rp, .num n] (.numOf t n) 0
  | num (n : String) : Reads .cast [.num n] (.num n) 0
  | call (f : String) (hf : f ∉ opTexts) {ws es d} (h : ReadsArgs ws es d) :
      Reads .call (.str f :: .lp :: (ws ++ [.rp])) (.call f es) (d + 1)
  | paren {ws e d} (h : Reads .logic ws e d) : Reads .primary (.lp :: (ws ++ [.rp])) e (d + 1)
  | var (x : String) : Reads .primary [.str x] (.var x) 0
/-- Arguments separated by commas. -/
inductive ReadsArgs : List Word → List Expr → Nat → Prop
  | one {ws e d} (h : Reads .logic ws e d) : ReadsArgs ws [e] d
  | more {ws vs e es d d'} (h : Reads .logic ws e d) (h' : ReadsArgs vs es d') :
      ReadsArgs (ws ++ .comma :: vs) (e :: es) (max d d')
end

/-- A program: assignments, each ended by a semicolon or a comma. -/
inductive ReadsProg : List Word → List (String × Expr) → Nat → Prop
  | nil : ReadsProg [] [] 0
  | cons (x : String) (stop : Word) (hs : stop = .semi ∨ stop = .comma) {ws e d vs prog d'}
      (h : Reads .logic ws e d) (h' : ReadsProg vs prog d') :
      ReadsProg (.str x :: .assign :: (ws ++ stop :: vs)) ((x, e) :: prog) (max d d')

/-- Names of the functions of the stack machine. -/
def BinOp.name : BinOp → String
  | .or => "OR" | .and => "AND" | .xor => "XOR"
  | .gt => "GT" | .lt => "LT" | .ge => "GTE" | .le => "LTE" | .eq => "EQ" | .ne => "NEQ"
  | .add => "ADD" | .sub => "SUB" | .mul => "MUL" | .div => "DIV"

/-- Upper case. -/
def upperCase (s : String) : String := String.ofList (s.toList.map Char.toUpper)

mutual
/-- Reverse Polish notation: operands in order, then the operator. -/
def rpn : Expr → List (List String)
  | .var x => [["READ", x]]
  | .num n => [["CONST", "float64", n]]
  | .numOf t n => [["CONST", t, n]]
  | .cast t e => rpn e ++ [["CAST", t]]
  | .neg e => rpn e ++ [["NEG"]]
  | .pos e => rpn e
  | .not e => rpn e ++ [["NOT"]]
  | .bin o l r => rpn l ++ rpn r ++ [[o.name]]
  | .call f args => rpnArgs args ++ [[upperCase f]]
def rpnArgs : List Expr → List (List String)
  | [] => []
  | e :: es => rpn e ++ rpnArgs es
end

def rpnProg (prog : List (String × Expr)) : List (List String) :=
  prog.flatMap fun p => rpn p.2 ++ [["WRITE", p.1]]

/-! ## Values -/
open Verif.Rpn

/-- The library function of that name for arguments of these types (last argument first), applied; `none` when there
is none, when it does not give one result, or when it reports an error. -/
def applyFn (lib : List Fn) (name : String) (args : List (Ty × Val)) (want : Option Ty) : Option (Ty × Val) :=
  match pick lib name (args.map (·.1)) want with
  | none => none
  | some r =>
    if r.ins = args.map (·.1) then
      match r.act with
      | .op _ f =>
        match r.outs, f (args.map (·.2)) with
        | [t], ([v], false) => some (t, v)
        | _, _ => none
      | _ => none
    else none

/-- The value of a variable: of the output if it has been assigned, else of the input. -/
def varValue (inD outD : String → Option Decl) (s : St) (x : String) : Option (Ty × Val) :=
  match stepRead inD outD s x with
  | some s' => s'.stack.head?
  | none => none

/-- Names that are not functions. -/
def reserved : List String := ["READ", "WRITE", "CONST", "CAST"]

mutual
/-- The value of an expression. -/
def value (lib : List Fn) (N : Names) (inD outD : String → Option Decl) (s : St) : Expr → Option (Ty × Val)
  | .var x => varValue inD outD s x
  | .num n => (N.literal (N.typeOf "float64") n).map fun v => (N.typeOf "float64", v)
  | .numOf t n => (N.literal (N.typeOf t) n).map fun v => (N.typeOf t, v)
  | .cast t e => (value lib N inD outD s e).bind fun a => applyFn lib "CAST" [a] (some (N.typeOf t))
  | .neg e => (value lib N inD outD s e).bind fun a => applyFn lib "NEG" [a] none
  | .pos e => value lib N inD outD s e
  | .not e => (value lib N inD outD s e).bind fun a => applyFn lib "NOT" [a] none
  | .bin o l r => (value lib N inD outD s l).bind fun a => (value lib N inD outD s r).bind fun b =>
      applyFn lib o.name [b, a] none
  | .call f args =>
      if upperCase f ∈ reserved then none
      else (values lib N inD outD s args).bind fun vs => applyFn lib (upperCase f) vs.reverse none
def values (lib : List Fn) (N : Names) (inD outD : String → Option Decl) (s : St) : List Expr → Option (List (Ty × Val))
  | [] => some []
  | e :: es => (value lib N inD outD s e).bind fun a => (values lib N inD outD s es).map fun as => a :: as
end

/-- The assignments in order. -/
def exec (lib : List Fn) (N : Names) (inD outD : String → Option Decl) : St → List (String × Expr) → Option St
  | s, [] => some s
  | s, (x, e) :: prog =>
    match value lib N inD outD s e with
    | none => none
    | some a =>
      match stepWrite lib outD { s with stack := a :: s.stack } x with
      | some s' => if s'.err then none else exec lib N inD outD s' prog
      | none => none

/-- All functions of a name take the same number of arguments. -/
def Uniform (lib : List Fn) : Prop := ∀ r ∈ lib, ∀ r' ∈ lib, r.name = r'.name → r.nIn = r'.nIn

end Verif.MathExpr
