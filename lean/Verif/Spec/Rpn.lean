/-!
# What a program in reverse Polish notation computes

Independent of the compiler and of the machine that runs the compiled code: a program is a list of lines (the
words of each line), executed in order on a stack of typed values and on named variables.
-/
namespace Verif.Rpn

/-- Memory is made of 32-bit words; a value is the words it occupies. -/
abbrev Word := Nat
abbrev Val := List Word

/-- The ten types of the library, the absent type, and any other type descriptor. -/
inductive Ty
  | f64 | f32 | u64 | i64 | u32 | i32 | u16 | i16 | u8 | i8
  | void
  | other (numeric : Bool) (bits : Nat)
deriving DecidableEq, Repr

def Ty.bits : Ty → Nat
  | .f64 | .u64 | .i64 => 64
  | .f32 | .u32 | .i32 => 32
  | .u16 | .i16 => 16
  | .u8 | .i8 => 8
  | .void => 0
  | .other _ b => b

/-- A type of numbers. -/
def Ty.numeric : Ty → Bool
  | .void => false
  | .other n b => n && decide (0 < b)
  | _ => true

/-- Words occupied by a value of the type. -/
def Ty.words (t : Ty) : Nat := (t.bits / 8 + 3) / 4

/-- What a function of the library does.  `read`, `write`, `rread`, `rwrite` move a value between the stack and a
variable (`r` for a variable that lives in memory supplied by the user); the others compute results from
arguments (first argument = top of the stack) and tell whether an error occurred.  `skip` marks the functions that
do nothing at all once an error is pending. -/
inductive Act
  | read
  | write (f : Val → Val × Bool)
  | rread
  | rwrite (f : Val → Val × Bool)
  | op (skip : Bool) (f : List Val → List Val × Bool)

/-- A function of the library: name, number of inputs and outputs, their types (inputs first). -/
structure Fn where
  name : String
  nIn : Nat
  nOut : Nat
  types : List Ty
  act : Act

def Fn.ins (r : Fn) : List Ty := r.types.take r.nIn
def Fn.outs (r : Fn) : List Ty := (r.types.drop r.nIn).take r.nOut
/-- The type after the inputs: result of a cast, type of the variable for a read or a write. -/
def Fn.target (r : Fn) : Option Ty := r.types[r.nIn]?

/-- The library is what it says: each function handles values of the declared types, and a result has at most
64 bits. -/
def Fn.Ok (r : Fn) : Prop :=
  match r.act with
  | .read => r.name = "READ" ∧ r.nIn = 0 ∧ r.nOut = 1 ∧ ∃ t, r.types = [t] ∧ t.words ≤ 2
  | .rread => r.name = "RREAD" ∧ r.nIn = 0 ∧ r.nOut = 1 ∧ ∃ t, r.types = [t] ∧ t.words ≤ 2
  | .write f => r.name = "WRITE" ∧ r.nIn = 1 ∧ r.nOut = 0 ∧ ∃ t u, r.types = [t, u] ∧ u.numeric ∧ u.words ≤ 2 ∧
      ∀ v : Val, v.length = t.words → (f v).1.length = u.words
  | .rwrite f => r.name = "RWRITE" ∧ r.nIn = 1 ∧ r.nOut = 0 ∧ ∃ t u, r.types = [t, u] ∧ u.numeric ∧ u.words ≤ 2 ∧
      ∀ v : Val, v.length = t.words → (f v).1.length = u.words
  | .op _ f => r.name ≠ "READ" ∧ r.name ≠ "WRITE" ∧ r.name ≠ "RREAD" ∧ r.name ≠ "RWRITE" ∧
      r.nIn + r.nOut ≤ r.types.length ∧ (r.outs.map Ty.words).sum ≤ 2 ∧
      ∀ vs : List Val, vs.map List.length = r.ins.map Ty.words →
        (f vs).1.map List.length = r.outs.map Ty.words

/-- Meaning of type names and of numeric literals. -/
structure Names where
  typeOf : String → Ty
  literal : Ty → String → Option Val

/-- Literals have the size of their type, and no type name denotes a type of more than 64 bits. -/
def Names.Ok (N : Names) : Prop :=
  (∀ t s v, N.literal t s = some v → v.length = t.words) ∧ ∀ s, (N.typeOf s).words ≤ 2

/-- A variable: its type (`void` when left to the program) and, if the user supplied the memory, where it is. -/
structure Decl where
  ty : Ty
  ext : Option Nat

/-- State of the calculation: the stack (top first), the values of the variables, the types of the outputs
written so far, the memory of the user, the error flag. -/
structure St where
  stack : List (Ty × Val)
  inp : String → Val
  out : String → Val
  written : String → Option Ty
  mem : Nat → Word
  err : Bool

/-- `n` words of the user's memory. -/
def load (mem : Nat → Word) (p n : Nat) : Val := (List.range n).map fun i => mem (p + i)
def store (mem : Nat → Word) (p : Nat) (v : Val) : Nat → Word :=
  fun a => if p ≤ a ∧ a < p + v.length then v.getD (a - p) 0 else mem a

/-- The function meant by a name: the first of that name whose argument types are those on the stack (and whose
target type is the wanted one, when one is wanted). -/
def pick (lib : List Fn) (name : String) (types : List Ty) (want : Option Ty) : Option Fn :=
  lib.find? fun r => r.name == name && r.ins.isPrefixOf types &&
    (match want with | none => true | some t => r.target == some t)

/-- Apply a function to the top of the stack. -/
def apply (s : St) (r : Fn) : Option St :=
  match r.act with
  | .op skip f =>
    if skip && s.err then none
    else
      let res := f ((s.stack.take r.nIn).map (·.2))
      some { s with stack := (r.outs.zip res.1).reverse ++ s.stack.drop r.nIn, err := s.err || res.2 }
  | _ => none

/-- `READ n`: the output of that name if it has been written before, else the input. -/
def stepRead (inD outD : String → Option Decl) (s : St) (n : String) : Option St :=
  match s.written n with
  | some t =>
    match outD n with
    | some d => some { s with stack := (t, match d.ext with | none => s.out n | some p => load s.mem p t.words) :: s.stack }
    | none => none
  | none =>
    match inD n with
    | some d => some { s with stack := (d.ty, match d.ext with | none => s.inp n | some p => load s.mem p d.ty.words) :: s.stack }
    | none => none

/-- `WRITE n`: the top of the stack goes to the output, converted to its type: the declared one, else that of the
first value written. -/
def stepWrite (lib : List Fn) (outD : String → Option Decl) (s : St) (n : String) : Option St :=
  match s.stack, outD n with
  | (t, v) :: rest, some d =>
    let ty := if d.ty = .void then (s.written n).getD t else d.ty
    match pick lib (if d.ext.isSome then "RWRITE" else "WRITE") (s.stack.map (·.1)) (some ty) with
    | some r =>
      match r.act, d.ext with
      | .write f, none =>
        some { s with stack := rest, out := fun m => if m = n then (f v).1 else s.out m
                      written := fun m => if m = n then some ty else s.written m
                      err := s.err || (f v).2 }
      | .rwrite f, some p =>
        some { s with stack := rest, mem := store s.mem p (f v).1
                      written := fun m => if m = n then some ty else s.written m
                      err := s.err || (f v).2 }
      | _, _ => none
    | none => none
  | _, _ => none

/-- Call of a function. -/
def stepCall (lib : List Fn) (s : St) (name : String) (want : Option Ty) : Option St :=
  match pick lib name (s.stack.map (·.1)) want with
  | some r => apply s r
  | none => none

/-- One line. `none`: the line makes no sense in this state, or a function that does nothing once an error is
pending is called with one pending. -/
def step (lib : List Fn) (N : Names) (inD outD : String → Option Decl) (s : St) (line : List String) :
    Option St :=
  match line with
  | [] => some s
  | cmd :: ps =>
    if cmd = "READ" then
      match ps with
      | [n] => stepRead inD outD s n
      | _ => none
    else if cmd = "WRITE" then
      match ps with
      | [n] => stepWrite lib outD s n
      | _ => none
    else if cmd = "CONST" then
      match ps with
      | [t, txt] =>
        match N.literal (N.typeOf t) txt with
        | some v => some { s with stack := (N.typeOf t, v) :: s.stack }
        | none => none
      | _ => none
    else if cmd = "CAST" then
      match ps with
      | [t] => stepCall lib s cmd (some (N.typeOf t))
      | _ => none
    else stepCall lib s cmd none

/-- The program.  In safe mode it stops after the first line that raises an error. -/
def run (safe : Bool) (lib : List Fn) (N : Names) (inD outD : String → Option Decl) :
    St → List (List String) → Option St
  | s, [] => some s
  | s, l :: ls =>
    if safe && s.err then some s
    else
      match step lib N inD outD s l with
      | some s' => run safe lib N inD outD s' ls
      | none => none

end Verif.Rpn
