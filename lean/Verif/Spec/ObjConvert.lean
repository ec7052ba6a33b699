import Verif.Model.ObjConvert
/-!
# Values of structures in memory
-/
namespace Verif.ObjConvert.Spec

mutual
/-- The value of a type. -/
inductive Val where
  | int (v : Int)
  | struct (vs : Vals)
/-- The values of the members. -/
inductive Vals where
  | nil
  | cons (v : Val) (rest : Vals)
end

/-- The value of so many bytes. -/
def natAt (mem : Mem) (a n : Nat) : Nat := ((List.range n).map fun i => (mem (a + i)).val * 256 ^ i).sum

/-- Two's complement. -/
def intAt (mem : Mem) (a n : Nat) (signed : Bool) : Int :=
  if signed = true ∧ 256 ^ n ≤ 2 * natAt mem a n then (natAt mem a n : Int) - 256 ^ n else natAt mem a n

mutual
/-- What a memory holds at an address for a type. -/
def valueAt (mem : Mem) : Ty → Nat → Val
  | .int w s _, a => .int (intAt mem a w s)
  | .struct ms, a => .struct (valuesAt mem ms a)
/-- The values of the members. -/
def valuesAt (mem : Mem) : Members → Nat → Vals
  | .nil, _ => .nil
  | .cons o t rest, a => .cons (valueAt mem t (a + o)) (valuesAt mem rest a)
end

/-- The integers of so many bytes. -/
def InRange (bytes : Nat) (signed : Bool) (v : Int) : Prop :=
  if signed then -(256 ^ bytes : Int) ≤ 2 * v ∧ 2 * v < 256 ^ bytes else 0 ≤ v ∧ v < 256 ^ bytes

/-- `w` is the integer of so many bytes that is nearest to `v`. -/
def Nearest (bytes : Nat) (signed : Bool) (v w : Int) : Prop :=
  InRange bytes signed w ∧ ∀ u, InRange bytes signed u → (v - w).natAbs ≤ (v - u).natAbs

mutual
/-- `w` is the value of the type `d` that `v` becomes: members in their order, as many of them, each the nearest that there is, and each accepted by its
check. -/
def Becomes : (d : Ty) → (v w : Val) → Prop
  | .int b s check, .int v, .int w => Nearest b s v w ∧ check w = true
  | .struct ms, .struct vs, .struct ws => BecomeAll ms vs ws
  | _, _, _ => False
/-- The same for the members. -/
def BecomeAll : (ms : Members) → (vs ws : Vals) → Prop
  | .nil, .nil, .nil => True
  | .cons _ t ms, .cons v vs, .cons w ws => Becomes t v w ∧ BecomeAll ms vs ws
  | _, _, _ => False
end

mutual
/-- The bytes that hold a value of a type at an address. -/
def Holds : Ty → (a : Nat) → (x : Nat) → Prop
  | .int w _ _, a, x => a ≤ x ∧ x < a + w
  | .struct ms, a, x => HoldsAll ms a x
/-- The bytes that hold the members. -/
def HoldsAll : Members → (a : Nat) → (x : Nat) → Prop
  | .nil, _, _ => False
  | .cons o t rest, a, x => Holds t (a + o) x ∨ HoldsAll rest a x
end

mutual
/-- The members of each structure have bytes of their own, and the integers have at least one byte. -/
def Laid : Ty → (a : Nat) → Prop
  | .int w _ _, _ => 0 < w
  | .struct ms, a => LaidAll ms a
/-- The same for the members. -/
def LaidAll : Members → (a : Nat) → Prop
  | .nil, _ => True
  | .cons o t rest, a => Laid t (a + o) ∧ LaidAll rest a ∧ ∀ x, ¬ (Holds t (a + o) x ∧ HoldsAll rest a x)
end

end Verif.ObjConvert.Spec
