/-!
# Model of what a console shows of a text

`BareMetal/L1Portability/Environment/Linux/BasicConsole.cpp`: `OSWrite`.  The calls of `write` on the standard output are a list; they succeed and
write all.  The column is a number without a bound (in the code it has 32 bits).  Pages (`PagedWrite`) are not modelled.
-/
namespace Verif.Console

/-- `BasicConsole.cpp:250-298`, the loop of `OSWrite`.  `pending`: the characters from `start` to before `index`; answers the calls of `write` of characters
of the text (`true`) and of line breaks that are added (`false`), and the column. -/
def loop (columns : Nat) : (column : Nat) → (pending : List Char) → List Char → List (Bool × List Char) × Nat
  | column, _, [] => ([], column)
  | column, pending, ch :: rest =>
    let c := if ch = '\n' then 0 else column
    let sink := ch = '\n' ∨ rest = [] ∨ c = columns
    let r := loop columns ((if c = columns then 0 else c) + 1) (if sink then [] else pending ++ [ch]) rest
    ((if sink then [(true, pending ++ [ch])] else []) ++ (if c = columns then [(false, ['\n'])] else []) ++ r.1, r.2)

/-- What a call of `OSWrite` answers and leaves. -/
structure Written where
  ok : Bool
  size : Nat
  shown : List Char
  column : Nat
deriving DecidableEq, Repr

/-- `BasicConsole.cpp:241-306` `OSWrite`: only the characters of the text are counted; nothing written is a failure. -/
def write (columns column : Nat) (text : List Char) : Written :=
  let r := loop columns column [] text
  let size : Nat := ((r.1.filter fun w => w.1).map fun w => w.2.length).sum
  ⟨decide (size ≠ 0), size, (r.1.map fun w => w.2).flatten, r.2⟩

/-- `BasicConsole.cpp:113`: a new console has no columns until `SetSceneSize` (346-351) is called. -/
def newColumns : Nat := 0
/-- `BasicConsole.cpp:112`: the column where a new console begins. -/
def newColumn : Nat := 0

/-- Several calls, one after the other. -/
def writeAll (columns : Nat) : Nat → List (List Char) → List Char × Nat
  | column, [] => ([], column)
  | column, t :: ts =>
    let w := write columns column t
    let r := writeAll columns w.column ts
    (w.shown ++ r.1, r.2)

end Verif.Console
