import Verif.Spec.Rpn
/-!
# Model of the RPN compiler and stack machine `RuntimeEvaluator`

`BareMetal/L4Configuration/RuntimeEvaluator.cpp`, `RuntimeEvaluator.h`, `RuntimeEvaluatorFunction.cpp`,
`VariableInformation.h`.

Simplifications, throughout:
* the text of the program is given as the tokens of its lines (the splitting is `GetToken`, see `Token`);
* memory is counted in words of 32 bits (`DataMemoryElement`, `VariableInformation.h:63`): a value of 8 or 16 bits
  takes a whole word;
* the function table is a parameter (`List Fn`), and so are the names of the types and the conversion of the
  literals (`Names`);
* the entries `Constant@n` that `ExtractVariables` adds to the input variables for `DeCompile` are left out: a
  program that uses such a name for a variable is outside the model;
* an outcome `none` of a memory access is an access outside the block.
-/
namespace Verif.Rt
open Verif.Rpn

/-- `uint16` arithmetic of `DataMemoryAddress` (`VariableInformation.h:58, 68`). -/
def add16 (a b : Nat) : Nat := (a + b) % 65536
def sub16 (a b : Nat) : Nat := (a % 65536 + 65536 - b % 65536) % 65536

/-- `VariableInformation.h:73` `MAXDataMemoryAddress`. -/
def noLoc : Nat := 65535

/-- `VariableInformation.h:79-110`. -/
structure Var where
  name : String
  type : Ty
  loc : Nat
  ext : Option Nat
  used : Bool
deriving DecidableEq, Repr

/-- The evaluator: variable lists, `startOfVariables`, data memory, code memory, size of the stack. -/
structure Ev where
  ins : List Var
  outs : List Var
  startVar : Nat
  data : List Word
  code : List Nat
  stackSize : Nat

/-- A new evaluator. -/
def Ev.new : Ev := { ins := [], outs := [], startVar := 0, data := [], code := [], stackSize := 0 }

/-- `RuntimeEvaluator.cpp:112-158` `VariableFinder`, `FindVariableinDB` (the code keeps the last match; names are
unique because `AddVariable2DB` refuses a name already present). -/
def find (db : List Var) (n : String) : Option Var := db.find? (fun v => v.name == n)

/-- `RuntimeEvaluator.cpp:160-183` `AddVariable2DB`: `none` when the name is present. -/
def addVar (db : List Var) (n : String) : Option (List Var) :=
  match find db n with
  | some _ => none
  | none => some (db ++ [{ name := n, type := .void, loc := noLoc, ext := none, used := false }])

/-- `RuntimeEvaluator.cpp:257-336`: one line of `ExtractVariables` on (inputs, outputs, nextConstantAddress);
`none` is an error. -/
def extractLine (N : Names) (s : List Var × List Var × Nat) (line : List String) :
    Option (List Var × List Var × Nat) :=
  match line with
  | [] => some s
  | cmd :: ps =>
    if cmd = "READ" then
      match ps with
      | [n] =>
        match find s.2.1 n with
        | some _ => some s
        | none =>
          match addVar s.1 n with
          | some db => some (db, s.2)
          | none => some s
      | _ => none
    else if cmd = "WRITE" then
      match ps with
      | [n] =>
        match addVar s.2.1 n with
        | some db => some (s.1, db, s.2.2)
        | none => none
      | _ => none
    else if cmd = "CONST" then
      match ps with
      | [t, _] =>
        if !(N.typeOf t).numeric then none
        else if (N.typeOf t).bits / 8 = 0 then none
        else some (s.1, s.2.1, add16 s.2.2 (N.typeOf t).words)
      | _ => none
    else some s

/-- The loop of `ExtractVariables`. -/
def extractLines (N : Names) : List Var × List Var × Nat → List (List String) →
    Option (List Var × List Var × Nat)
  | s, [] => some s
  | s, l :: ls =>
    match extractLine N s l with
    | some s' => extractLines N s' ls
    | none => none

/-- `RuntimeEvaluator.cpp:224-347` `ExtractVariables`; `none` is an error. -/
def extract (N : Names) (e : Ev) (lines : List (List String)) : Option Ev :=
  match extractLines N (e.ins, e.outs, 0) lines with
  | some (i, o, c) => some { e with ins := i, outs := o, startVar := c }
  | none => none

/-- `RuntimeEvaluator.cpp:437-573`: the setters by name. -/
inductive SetOp
  | inType (n : String) (t : Ty)
  | inMem (n : String) (p : Option Nat)
  | outType (n : String) (t : Ty)
  | outMem (n : String) (p : Option Nat)

def setVar (db : List Var) (n : String) (f : Var → Var) : List Var :=
  db.map fun v => if v.name = n then f v else v

def setOp (e : Ev) : SetOp → Ev
  | .inType n t => { e with ins := setVar e.ins n fun v => { v with type := t } }
  | .inMem n p => { e with ins := setVar e.ins n fun v => { v with ext := p } }
  | .outType n t => { e with outs := setVar e.outs n fun v => { v with type := t } }
  | .outMem n p => { e with outs := setVar e.outs n fun v => { v with ext := p } }

/-- `sizeof(void *)` in words. -/
def ptrWords : Nat := 2

/-- `RuntimeEvaluator.cpp:597-603, 624-630`: words taken by a variable, or by the address of its memory. -/
def placeW (v : Var) : Nat :=
  match v.ext with
  | none => v.type.words
  | some _ => ptrWords

/-- `RuntimeEvaluator.cpp:587-607`: the places of the inputs. The result is (no error, variables, next address). -/
def placeIns : List Var → Nat → Bool × List Var × Nat
  | [], a => (true, [], a)
  | v :: vs, a =>
    if !v.type.numeric then (false, v :: vs, a)
    else if v.loc = noLoc then
      let r := placeIns vs (add16 a (placeW v))
      (r.1, { v with loc := a } :: r.2.1, r.2.2)
    else
      let r := placeIns vs a
      (r.1, v :: r.2.1, r.2.2)

/-- `RuntimeEvaluator.cpp:611-635`: the places of the outputs. -/
def placeOuts : List Var → Nat → Bool × List Var × Nat
  | [], a => (true, [], a)
  | v :: vs, a =>
    if v.type = .void ∧ v.ext = none then
      let r := placeOuts vs (add16 a 2)
      (r.1, { v with loc := a } :: r.2.1, r.2.2)
    else if !v.type.numeric then (false, v :: vs, a)
    else
      let r := placeOuts vs (add16 a (placeW v))
      (r.1, { v with loc := a } :: r.2.1, r.2.2)

/-- Read and write of `n` words at an address of a block. -/
def readW (m : List Word) (a n : Nat) : Option Val :=
  if a + n ≤ m.length then some ((m.drop a).take n) else none
def writeW (m : List Word) (a : Nat) (v : Val) : Option (List Word) :=
  if a + v.length ≤ m.length then some (m.take a ++ v ++ m.drop (a + v.length)) else none

/-- A pointer of 64 bits, in words. -/
def ptrVal (p : Nat) : Val := [p % 2 ^ 32, p / 2 ^ 32]
def ptrOf (v : Val) : Nat := v.getD 0 0 + 2 ^ 32 * v.getD 1 0

/-- `RuntimeEvaluatorFunction.cpp:74-81, 93-97`: the inputs are compared with, and removed from, the top of the
type stack (top first). -/
def dropTypes : List Ty → List Ty → Option (List Ty)
  | [], ts => some ts
  | w :: ws, t :: ts => if t = w then dropTypes ws ts else none
  | _ :: _, [] => none

/-- `RuntimeEvaluatorFunction.cpp:74-103`: inputs off, outputs on. -/
def swapTypes (r : Fn) (ts : List Ty) : Option (List Ty) :=
  match dropTypes r.ins ts with
  | none => none
  | some rest => some (r.outs.reverse ++ rest)

/-- `RuntimeEvaluatorFunction.cpp:57-107` `TryConsume`: the new type stack. -/
def tryConsume (r : Fn) (name : String) (ts : List Ty) (matchOutput : Bool) : Option (List Ty) :=
  if r.name ≠ name then none
  else if matchOutput then
    match ts with
    | t :: ts' => if r.target = some t then swapTypes r ts' else none
    | [] => none
  else swapTypes r ts

/-- `RuntimeEvaluatorFunction.cpp:96, 102`: the simulated size of the data stack. -/
def consumeSize (r : Fn) (d : Nat) : Nat :=
  r.outs.foldl (fun d t => add16 d t.words) (r.ins.foldl (fun d t => sub16 d t.words) d)

/-- `RuntimeEvaluatorFunction.cpp:129-140` `FindPCodeAndUpdateTypeStack`: index of the function, new type stack,
new stack size. -/
def findPCode : List Fn → String → List Ty → Bool → Nat → Nat → Option (Nat × List Ty × Nat)
  | [], _, _, _, _, _ => none
  | r :: rs, name, ts, m, d, i =>
    match tryConsume r name ts m with
    | some ts' => some (i, ts', consumeSize r d)
    | none => findPCode rs name ts m d (i + 1)

/-- The local variables of `Compile`, the output variables, and the data memory. -/
structure C where
  ts : List Ty
  dss : Nat
  maxDss : Nat
  nextConst : Nat
  code : List Nat
  outs : List Var
  data : List Word

/-- Outcome of a piece of the compilation. -/
inductive R (α : Type)
  | ok (a : α)
  | error
  | crash
deriving DecidableEq

/-- `RuntimeEvaluator.cpp:680, 926-932`: the second word of an instruction. -/
def operand : Option Nat → List Nat
  | some a => if a ≠ noLoc then [a] else []
  | none => []

/-- `RuntimeEvaluator.cpp:886-933`: function look-up and emission. -/
def finish (lib : List Fn) (c : C) (cmd : String) (m : Bool) (code2 : Option Nat) : R C :=
  match findPCode lib cmd c.ts m c.dss 0 with
  | none => .error
  | some (i, ts, d) =>
    .ok { c with ts := ts, dss := d, maxDss := if d > c.maxDss then d else c.maxDss
                 code := c.code ++ [i] ++ operand code2 }

/-- `RuntimeEvaluator.cpp:730-737, 804-811`: the address of a remote variable is put in its place in the data
memory. -/
def putPtr (data : List Word) (v : Var) : Option (List Word) :=
  match v.ext with
  | some p => writeW data v.loc (ptrVal p)
  | none => some data

/-- `RuntimeEvaluator.cpp:717-773` the `WRITE` line. -/
def compWrite (lib : List Fn) (c : C) (n : String) : R C :=
  match find c.outs n with
  | none => .error
  | some v =>
    match putPtr c.data v with
    | none => .crash
    | some data =>
      match (if v.type = .void ∧ v.ext = none then c.ts.head?
             else if v.type.numeric then some v.type else none) with
      | none => .error
      | some td =>
        finish lib { c with data := data, ts := td :: c.ts
                            outs := setVar c.outs n fun v => { v with type := td, used := true } }
          (if v.ext.isSome then "RWRITE" else "WRITE") true (some v.loc)

/-- `RuntimeEvaluator.cpp:785-802`: the variable meant by a `READ`. -/
def readVar (ins : List Var) (c : C) (n : String) : Option Var :=
  match find c.outs n with
  | some v => if v.used then some v else find ins n
  | none => find ins n

/-- `RuntimeEvaluator.cpp:782-834` the `READ` line. -/
def compRead (lib : List Fn) (ins : List Var) (c : C) (n : String) : R C :=
  match readVar ins c n with
  | none => .error
  | some v =>
    match putPtr c.data v with
    | none => .crash
    | some data =>
      if v.type.numeric then
        finish lib { c with data := data, ts := v.type :: c.ts }
          (if v.ext.isSome then "RREAD" else "READ") true (some v.loc)
      else .error

/-- `RuntimeEvaluator.cpp:842-884` the `CONST` line. -/
def compConst (lib : List Fn) (N : Names) (c : C) (t txt : String) : R C :=
  if (N.typeOf t).numeric then
    match N.literal (N.typeOf t) txt with
    | none => .error
    | some v =>
      match writeW c.data c.nextConst v with
      | none => .crash
      | some data =>
        finish lib { c with data := data, ts := N.typeOf t :: c.ts
                            nextConst := add16 c.nextConst (N.typeOf t).words } "READ" true (some c.nextConst)
  else .error

/-- `RuntimeEvaluator.cpp:678-934`: one line of `Compile`. -/
def compLine (lib : List Fn) (N : Names) (ins : List Var) (c : C) (line : List String) : R C :=
  match line with
  | [] => .ok c
  | cmd :: ps =>
    if cmd = "CAST" then
      match ps with
      | [t] =>
        if (N.typeOf t).numeric then finish lib { c with ts := N.typeOf t :: c.ts } cmd true none
        else .error
      | _ => .error
    else if cmd = "WRITE" then
      match ps with
      | [n] => compWrite lib c n
      | _ => .error
    else if cmd = "READ" then
      match ps with
      | [n] => compRead lib ins c n
      | _ => .error
    else if cmd = "CONST" then
      match ps with
      | [t, txt] => compConst lib N c t txt
      | _ => .error
    else finish lib c cmd false none

/-- The loop of `Compile`. -/
def compLines (lib : List Fn) (N : Names) (ins : List Var) : C → List (List String) → R C
  | c, [] => .ok c
  | c, l :: ls =>
    match compLine lib N ins c l with
    | .ok c' => compLines lib N ins c' ls
    | .error => .error
    | .crash => .crash

/-- `RuntimeEvaluator.cpp:575-962` `Compile`: result and new state. `junk` is the content of the new data memory.
After an error only the places of the variables are kept in the state (the code memory and the types given to
outputs by a failed compilation are not modelled). -/
def compile (lib : List Fn) (N : Names) (junk : Nat → Word) (e : Ev) (lines : List (List String)) :
    R (Bool × Ev) :=
  let pi := placeIns e.ins e.startVar
  if !pi.1 then .ok (false, { e with ins := pi.2.1 })
  else
    let po := placeOuts e.outs pi.2.2
    if !po.1 then .ok (false, { e with ins := pi.2.1, outs := po.2.1 })
    else
      match compLines lib N pi.2.1 { ts := [], dss := 0, maxDss := 0, nextConst := 0, code := []
                                     outs := po.2.1, data := (List.range po.2.2).map junk } lines with
      | .ok c => .ok (c.ts.isEmpty, { e with ins := pi.2.1, outs := c.outs, data := c.data, code := c.code
                                             stackSize := c.maxDss })
      | .error => .ok (false, { e with ins := pi.2.1, outs := po.2.1 })
      | .crash => .crash

/-- The machine: code pointer, stack pointer (words above the base), stack, data memory, the user's memory,
`runtimeError`. -/
structure M where
  pc : Nat
  sp : Nat
  stack : List Word
  data : List Word
  mem : Nat → Word
  err : Bool

/-- `RuntimeEvaluator.h:817-828` `Pop`. -/
def pop (m : M) (n : Nat) : Option (Val × M) :=
  if n ≤ m.sp then
    match readW m.stack (m.sp - n) n with
    | some v => some (v, { m with sp := m.sp - n })
    | none => none
  else none

/-- `RuntimeEvaluator.h:844-851` `Push`. -/
def push (m : M) (v : Val) : Option M :=
  match writeW m.stack m.sp v with
  | some s => some { m with stack := s, sp := m.sp + v.length }
  | none => none

def popAll : M → List Nat → Option (List Val × M)
  | m, [] => some ([], m)
  | m, n :: ns =>
    match pop m n with
    | none => none
    | some (v, m1) =>
      match popAll m1 ns with
      | none => none
      | some (vs, m2) => some (v :: vs, m2)

def pushAll : M → List Val → Option M
  | m, [] => some m
  | m, v :: vs =>
    match push m v with
    | none => none
    | some m1 => pushAll m1 vs

/-- `RuntimeEvaluator.h:859-863` `GetPseudoCode`: the word at the code pointer. -/
def fetch (code : List Nat) (m : M) : Option (Nat × M) :=
  match code[m.pc]? with
  | some x => some (x, { m with pc := m.pc + 1 })
  | none => none

/-- `RuntimeEvaluatorFunction.cpp:150-184, 973-1068`: the functions that move values between variables and the
stack; `RuntimeEvaluatorFunction.cpp:204-214, 247-576, 578-961`: the functions that compute. -/
def exec (code : List Nat) (r : Fn) (m : M) : Option M :=
  match r.act with
  | .read =>
    match fetch code m with
    | none => none
    | some (a, m1) =>
      match readW m1.data a (r.types.headD .void).words with
      | none => none
      | some v => push m1 v
  | .rread =>
    match fetch code m with
    | none => none
    | some (a, m1) =>
      match readW m1.data a ptrWords with
      | none => none
      | some p => push m1 (load m1.mem (ptrOf p) (r.types.headD .void).words)
  | .write f =>
    match fetch code m with
    | none => none
    | some (a, m1) =>
      match pop m1 (r.types.headD .void).words with
      | none => none
      | some (v, m2) =>
        match writeW m2.data a (f v).1 with
        | none => none
        | some d => some { m2 with data := d, err := m2.err || (f v).2 }
  | .rwrite f =>
    match fetch code m with
    | none => none
    | some (a, m1) =>
      match pop m1 (r.types.headD .void).words with
      | none => none
      | some (v, m2) =>
        match readW m2.data a ptrWords with
        | none => none
        | some p => some { m2 with mem := store m2.mem (ptrOf p) (f v).1, err := m2.err || (f v).2 }
  | .op skip f =>
    if skip && m.err then some m
    else
      match popAll m (r.ins.map Ty.words) with
      | none => none
      | some (vs, m1) =>
        match pushAll m1 (f vs).1 with
        | none => none
        | some m2 => some { m2 with err := m2.err || (f vs).2 }

/-- `RuntimeEvaluator.cpp:1148-1151, 1158-1167`: the loop of `Execute` in fast and in safe mode, at most `fuel`
functions (`none` also when these are not enough). The check of the stack pointer in safe mode comes after the
function has run. -/
def loop (safe : Bool) (lib : List Fn) (code : List Nat) : Nat → M → Option M
  | 0, m => if m.pc < code.length ∧ !(safe && m.err) then none else some m
  | fuel + 1, m =>
    if m.pc < code.length ∧ !(safe && m.err) then
      match fetch code m with
      | none => none
      | some (x, m1) =>
        match lib[x]? with
        | none => none
        | some r =>
          match exec code r m1 with
          | none => none
          | some m2 =>
            loop safe lib code fuel
              (if safe then { m2 with err := m2.err || decide (m2.sp > m2.stack.length) } else m2)
    else some m

/-- `RuntimeEvaluator.cpp:1134-1260` `Execute` in fast and safe mode, with the given content of the stack block,
the data memory and the user's memory. The result is the final machine and `true` when no error is reported.
`codeMaxIndex` is a `uint16` (`1139`). -/
def execute (safe : Bool) (lib : List Fn) (e : Ev) (stack0 data : List Word) (mem : Nat → Word) :
    Option (Bool × M) :=
  let code := e.code.take (e.code.length % 65536)
  match loop safe lib code code.length
      { pc := 0, sp := 0, stack := stack0, data := data, mem := mem, err := false } with
  | none => none
  | some m => some (!m.err && !(safe && decide (m.pc < code.length)) && decide (m.sp = 0), m)

end Verif.Rt
