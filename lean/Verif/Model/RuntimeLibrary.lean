import Verif.Model.RuntimeEvaluator
/-!
# The function table of the RPN machine

`BareMetal/L4Configuration/RuntimeEvaluatorFunction.cpp:150-1086`: names, numbers of inputs and outputs and types
of all the registered functions, in the order of registration (the order of the definitions in the file).  What
the arithmetic computes is a parameter (`Arith`): floating point and `SafeMath` are not modelled here.
-/
namespace Verif.Rt
open Verif.Rpn

/-- The numeric part of the library. `conv` is `SafeNumber2Number` (second component: out of range). -/
structure Arith where
  conv : Ty → Ty → Val → Val × Bool
  op : String → List Ty → List Ty → List Val → List Val × Bool

/-- The functions deliver values of the size of the C++ variable they push. -/
def Arith.Ok (A : Arith) : Prop :=
  (∀ t u v, v.length = t.words → (A.conv t u v).1.length = u.words) ∧
  ∀ n is os vs, vs.map List.length = is.map Ty.words → (A.op n is os vs).1.map List.length = os.map Ty.words

inductive Kind
  | read | rread | write | rwrite | same | rsame | op | skip
deriving DecidableEq

/-- One registration. -/
structure Entry where
  name : String
  kind : Kind
  nIn : Nat
  nOut : Nat
  types : List Ty
deriving DecidableEq

/-- `RuntimeEvaluatorFunction.cpp:164-173` (and the order of the other blocks by type). -/
def allTypes : List Ty := [.f64, .f32, .u64, .i64, .u32, .i32, .u16, .i16, .u8, .i8]
def floats : List Ty := [.f64, .f32]

/-- `164-184` `READ`, `WRITE`. -/
def tReadWrite : List Entry :=
  allTypes.map (fun t => ⟨"READ", .read, 0, 1, [t]⟩) ++ allTypes.map (fun t => ⟨"WRITE", .same, 1, 0, [t, t]⟩)

/-- `195-237` `CAST`. -/
def tCast : List Entry := allTypes.flatMap fun t => allTypes.map fun u => ⟨"CAST", .op, 1, 1, [t, u]⟩

/-- `247-285`: functions of one and two arguments, `float32` first. -/
def tFunctions : List Entry :=
  (["SIN", "COS", "TAN", "EXP", "LOG", "LOG10"].flatMap fun n => [.f32, .f64].map fun t => ⟨n, .op, 1, 1, [t, t]⟩) ++
  [.f32, .f64].map fun t => ⟨"POW", .op, 2, 1, [t, t, t]⟩

/-- `296-346`: comparisons. -/
def tCompare : List Entry :=
  ["GT", "LT", "GTE", "LTE", "EQ", "NEQ"].flatMap fun n => allTypes.map fun t => ⟨n, .op, 2, 1, [t, t, .u8]⟩

/-- `357-393`: logical functions. -/
def tLogical : List Entry :=
  ["AND", "OR", "XOR"].map (fun n => ⟨n, .op, 2, 1, [.u8, .u8, .u8]⟩) ++ [⟨"NOT", .op, 1, 1, [.u8, .u8]⟩]

/-- `404-420`: floating point operations. -/
def tFloat : List Entry :=
  ["ADD", "SUB", "MUL", "DIV"].flatMap fun n => floats.map fun t => ⟨n, .op, 2, 1, [t, t, t]⟩

/-- `432-458` `NEG`. -/
def tNeg : List Entry :=
  ([(.f64, .f64), (.f32, .f32), (.i8, .i8), (.i16, .i16), (.i32, .i32), (.i64, .i64), (.u8, .i16), (.u16, .i32),
    (.u32, .i64), (.u64, .i64)] : List (Ty × Ty)).map fun p => ⟨"NEG", .op, 1, 1, [p.1, p.2]⟩

/-- `661-663` `REGISTER_2T_OPERATOR`; `s` for the functions that test `runtimeError` first
(`530-576, 597-658`). -/
def two (n : String) (s : Bool) (t u : Ty) : Entry := ⟨n, if s then .skip else .op, 2, 1, [t, t, u]⟩
/-- `666-670` `REGISTER_3T_OPERATOR`. -/
def three (n : String) (s : Bool) (t u v : Ty) : List Entry :=
  [⟨n, if s then .skip else .op, 2, 1, [t, u, v]⟩, ⟨n, if s then .skip else .op, 2, 1, [u, t, v]⟩]

/-- The mixed pairs of `684-703`, also `744-763` and `775-794`. -/
def mixed : List (Ty × Ty × Ty) :=
  [(.i8, .i32, .i32), (.i16, .i32, .i32), (.u8, .i32, .i32), (.u16, .i32, .i32), (.u32, .i32, .i32),
   (.i8, .i64, .i64), (.i16, .i64, .i64), (.i32, .i64, .i64), (.u8, .i64, .i64), (.u16, .i64, .i64),
   (.u32, .i64, .i64), (.u64, .i64, .i64), (.u8, .u32, .u32), (.u16, .u32, .u32), (.u8, .u64, .u64),
   (.u16, .u64, .u64), (.u32, .u64, .u64)]

/-- `673-703` `ADD` and `733-763` `MUL`. -/
def tAddMul (n : String) : List Entry :=
  [two n false .i8 .i32, two n false .i16 .i32, two n true .i32 .i32, two n false .i32 .i64, two n true .i64 .i64,
   two n false .u8 .u32, two n false .u16 .u32, two n true .u32 .u32, two n false .u32 .u64, two n true .u64 .u64] ++
  mixed.flatMap fun p => three n true p.1 p.2.1 p.2.2

/-- `706-730` `SUB`. -/
def tSub : List Entry :=
  [two "SUB" false .i8 .i32, two "SUB" false .i16 .i32, two "SUB" true .i32 .i32, two "SUB" true .i64 .i64,
   two "SUB" false .u8 .i32, two "SUB" false .u16 .i32, two "SUB" true .u32 .i32, two "SUB" true .u64 .i64] ++
  ([(.i8, .i32, .i32), (.i16, .i32, .i32), (.u8, .i32, .i32), (.u16, .i32, .i32), (.u32, .i32, .i32),
    (.i8, .i64, .i64), (.i16, .i64, .i64), (.i32, .i64, .i64), (.u8, .i64, .i64), (.u16, .i64, .i64),
    (.u32, .i64, .i64), (.u64, .i64, .i64), (.u8, .u32, .i32), (.u16, .u32, .i32), (.u8, .u64, .i64),
    (.u16, .u64, .i64), (.u32, .u64, .i64)] : List (Ty × Ty × Ty)).flatMap fun p => three "SUB" true p.1 p.2.1 p.2.2

/-- `766-794` `DIV`. -/
def tDiv : List Entry :=
  [two "DIV" false .i8 .i32, two "DIV" false .i16 .i32, two "DIV" false .i32 .i32, two "DIV" false .i64 .i64,
   two "DIV" false .u8 .u32, two "DIV" false .u16 .u32, two "DIV" false .u32 .u32, two "DIV" false .u64 .u64] ++
  mixed.flatMap fun p => three "DIV" false p.1 p.2.1 p.2.2

/-- `928-961`: comparisons of different types. -/
def tMixedCompare : List Entry :=
  ["GT", "LT", "GTE", "LTE", "EQ", "NEQ"].flatMap fun n =>
    ([(.i8, .i32), (.i16, .i32), (.u8, .i32), (.u16, .i32), (.u32, .i32), (.i8, .i64), (.i16, .i64), (.i32, .i64),
      (.u8, .i64), (.u16, .i64), (.u32, .i64), (.u64, .i64), (.u8, .u32), (.u16, .u32), (.i8, .u64), (.i16, .u64),
      (.i32, .u64), (.u8, .u64), (.u16, .u64), (.u32, .u64)] : List (Ty × Ty)).flatMap fun p =>
        [⟨n, .op, 2, 1, [p.1, p.2, .u8]⟩, ⟨n, .op, 2, 1, [p.2, p.1, .u8]⟩]

/-- The pairs of `994-1010` and `1070-1086`. -/
def convPairs : List (Ty × Ty) :=
  [(.u64, .u8), (.u64, .u16), (.u64, .u32), (.i64, .u8), (.i64, .u16), (.i64, .u32), (.i64, .u64), (.i64, .i8),
   (.i64, .i16), (.i64, .i32), (.u32, .u8), (.u32, .u16), (.i32, .u8), (.i32, .u16), (.i32, .u32), (.i32, .i8),
   (.i32, .i16)]

/-- `994-1086`: converting `WRITE`, `RREAD`, `RWRITE`, converting `RWRITE`. -/
def tRemote : List Entry :=
  convPairs.map (fun p => ⟨"WRITE", .write, 1, 0, [p.1, p.2]⟩) ++
  allTypes.map (fun t => ⟨"RREAD", .rread, 0, 1, [t]⟩) ++
  allTypes.map (fun t => ⟨"RWRITE", .rsame, 1, 0, [t, t]⟩) ++
  convPairs.map (fun p => ⟨"RWRITE", .rwrite, 1, 0, [p.1, p.2]⟩)

/-- The whole table. -/
def table : List Entry :=
  tReadWrite ++ tCast ++ tFunctions ++ tCompare ++ tLogical ++ tFloat ++ tNeg ++ tAddMul "ADD" ++ tSub ++
  tAddMul "MUL" ++ tDiv ++ tMixedCompare ++ tRemote

def Entry.fn (A : Arith) (e : Entry) : Fn :=
  { name := e.name, nIn := e.nIn, nOut := e.nOut, types := e.types
    act := match e.kind with
      | .read => .read
      | .rread => .rread
      | .same => .write fun v => (v, false)
      | .rsame => .rwrite fun v => (v, false)
      | .write => .write (A.conv (e.types.headD .void) (e.types.getD 1 .void))
      | .rwrite => .rwrite (A.conv (e.types.headD .void) (e.types.getD 1 .void))
      | .op => .op false (A.op e.name (e.types.take e.nIn) ((e.types.drop e.nIn).take e.nOut))
      | .skip => .op true (A.op e.name (e.types.take e.nIn) ((e.types.drop e.nIn).take e.nOut)) }

/-- The library. -/
def builtin (A : Arith) : List Fn := table.map (Entry.fn A)

end Verif.Rt
