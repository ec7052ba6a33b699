import Verif.Model.ConfigDb
/-!
# Model of `BareMetal/L4Configuration/ConfigurationDatabase.cpp:138-170`, `Copy`

The destination is another `ConfigurationDatabase` (the interface allows any `StructuredDataI`).  The calls that `Copy`
makes on itself and on the destination are the calls of `Verif.ConfigDb.step`.  The values are handed over as they are.
-/
namespace Verif.ConfigDb

variable {V : Type}

/-- The returned flag of a call. -/
def flagOf : Out V → Bool
  | .flag b => b
  | _ => false

/-- A call that returns a flag. -/
def call (s : St V) (op : Op V) : Option (Bool × St V) := (step s op).map fun r => (flagOf r.1, r.2)

/-- `ConfigurationDatabase.cpp:141-168`: the loop of `Copy` from the index `i`, on the current node of `s`; `Copy`
itself (line 152) starts again from 0.  `fuel` bounds the number of children visited; `none` is the use of a null pointer or a
loop that has not ended. -/
def copyFrom : Nat → St V → St V → Nat → Option (Bool × St V × St V)
  | 0, _, _, _ => none
  | fuel + 1, s, d, i => s.cur.bind fun c =>
    match get s.heap c i with
    | none => some (true, s, d)
    | some (.node j) =>
      let name := (s.heap j).name
      (call d (.createRelative name)).bind fun r1 =>
      (call s (.moveRelative name)).bind fun r2 =>
      (if r1.1 && r2.1 then copyFrom fuel r2.2 r1.2 0 else some (false, r2.2, r1.2)).bind fun r3 =>
      (call r3.2.1 (.moveToAncestor 1)).bind fun r4 =>
      (call r3.2.2 (.moveToAncestor 1)).bind fun r5 =>
      if r3.1 && r4.1 && r5.1 then copyFrom fuel r4.2 r5.2 (i + 1) else some (false, r4.2, r5.2)
    | some (.leaf name v) =>
      (call d (.write name v)).bind fun r1 =>
      if r1.1 then copyFrom fuel s r1.2 (i + 1) else some (false, s, r1.2)

/-- `ConfigurationDatabase.cpp:138-170`: `Copy(destination)`. -/
def copy (fuel : Nat) (s d : St V) : Option (Bool × St V × St V) := copyFrom fuel s d 0

end Verif.ConfigDb
