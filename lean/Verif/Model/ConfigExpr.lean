/-!
# Model of the expressions in configurations (`BareMetal/L4Configuration/ConfigurationParserI.cpp`)

`ConfigurationParserI::End`, `ExpandExpression` and `BrowseExpressionVariables`.  The database is a `ConfigurationDatabase` with
a current node; a leaf has a value with its type (of `V`) or a text.  The parser and the evaluator of expressions
(`MathExpressionParser`, `RuntimeEvaluator`) are parameters: an expression has a list of variables in the order in which
`BrowseInputVariable` gives them, without the constants, and a result that depends on the values of these.

Simplifications: the names of variables are given as the list of their parts between dots (none of which is empty); a variable
that is a text makes the compilation fail; the leaf of an expression is still a text when it is expanded.
-/
namespace Verif.ConfigExpr

abbrev Name := List Char

/-- A variable `a.b.name`. -/
structure Var where
  path : List Name
  name : Name
deriving DecidableEq

inductive Leaf (V : Type) where
  | text (t : List Char)
  | value (v : V)
deriving DecidableEq

/-- The database: its nodes (by their paths), its leaves and the current node. -/
structure Db (V : Type) where
  nodes : List (List Name)
  leaf : List Name → Name → Option (Leaf V)
  here : List Name

/-- The parser and the evaluator of expressions. `Ty` is the type of the result; `numeric` if it can be the type of a result. -/
structure Math (V Ty : Type) where
  vars : List Char → Option (List Var)
  numeric : Ty → Bool
  run : List Char → Ty → List (Var × V) → Option V

variable {V Ty : Type}

/-- `ConfigurationDatabase::MoveAbsolute` and `MoveToRoot`: the answer, and the database. -/
def move (p : List Name) (d : Db V) : Bool × Db V := if p = [] ∨ p ∈ d.nodes then (true, { d with here := p }) else (false, d)

/-- `ConfigurationParserI.cpp:451-487`: the variables one after the other; one without a path is looked for in the current node.
`none`: a variable is not found. -/
def browse : List Var → Db V → Option (List (Var × V) × Db V)
  | [], d => some ([], d)
  | v :: vs, d =>
    let r := if v.path = [] then (true, d) else move v.path d
    if r.1 then
      match r.2.leaf r.2.here v.name with
      | some (.value x) => (browse vs r.2).map fun q => ((v, x) :: q.1, q.2)
      | _ => none
    else none

/-- `ConfigurationDatabase::Write` in the current node. -/
def write (name : Name) (x : V) (d : Db V) : Db V :=
  { d with leaf := fun p n => if p = d.here ∧ n = name then some (.value x) else d.leaf p n }

/-- An expression that was found by the parser: where it is and the type of its result. -/
structure Expr (Ty : Type) where
  path : List Name
  leaf : Name
  ty : Ty

/-- `ConfigurationParserI.cpp:322-424` `ExpandExpression`; `none`: it answers `false`. -/
def expand (m : Math V Ty) (e : Expr Ty) (d : Db V) : Option (Db V) :=
  let r := move e.path d
  if r.1 then
    match r.2.leaf r.2.here e.leaf with
    | some (.text t) =>
      match m.vars t with
      | none => none
      | some vars =>
        if m.numeric e.ty then
          match browse vars (move [] r.2).2 with
          | none => none
          | some q =>
            match m.run t e.ty q.1 with
            | none => none
            | some x =>
              let r := move e.path q.2
              if r.1 then some (write e.leaf x r.2) else none
        else none
    | _ => none
  else none

/-- `ConfigurationParserI.cpp:281-319` `End`: the expressions in the order in which they are written. -/
def expandAll (m : Math V Ty) : List (Expr Ty) → Db V → Option (Db V)
  | [], d => some (move [] d).2
  | e :: es, d => (expand m e d).bind (expandAll m es)

end Verif.ConfigExpr
