/-!
# Model of the conversion of a structure to another

`BareMetal/L4Configuration/TypeConversion.cpp`: `ObjectToObject` and the part of `TypeConvert` that it reaches for members that are integers (or pointers,
which are taken as integers: lines 560-568) or structures.  Members that are texts, floating point numbers or arrays are not modelled (C68, C79, C93), nor are
constant members.  The checks of the attributes of a member (C78) are any function of its value.
-/
namespace Verif.ObjConvert

mutual
/-- A type: an integer of so many bytes, with or without sign, and the check of its value; or a structure. -/
inductive Ty where
  | int (bytes : Nat) (signed : Bool) (check : Int → Bool)
  | struct (members : Members)
/-- The members of a structure: offsets and types. -/
inductive Members where
  | nil
  | cons (offset : Nat) (type : Ty) (rest : Members)
end

/-- The memory. -/
abbrev Mem := Nat → Fin 256

/-- The `n` bytes at an address, the least significant first. -/
def load (mem : Mem) (a : Nat) : Nat → Nat
  | 0 => 0
  | n + 1 => (mem a).val + 256 * load mem (a + 1) n

/-- Writing of `n` bytes at an address. -/
def store (mem : Mem) (a : Nat) : Nat → Nat → Mem
  | 0, _ => mem
  | n + 1, v => store (fun x => if x = a then Fin.ofNat 256 v else mem x) (a + 1) n (v / 256)

/-- The number that a pattern of bits stands for. -/
def number (bytes : Nat) (signed : Bool) (x : Nat) : Int :=
  if signed = true ∧ 256 ^ bytes ≤ 2 * x then (x : Int) - 256 ^ bytes else x

/-- `TypeConversion.cpp:214-252` with `BitSetToBitSet`: the number that is stored (C65). -/
def saturate (bytes : Nat) (signed : Bool) (v : Int) : Int :=
  let low : Int := if signed then -(256 ^ bytes / 2 : Nat) else 0
  let high : Int := (if signed then 256 ^ bytes / 2 - 1 else 256 ^ bytes - 1 : Nat)
  if v < low then low else if high < v then high else v

/-- The number of members. -/
def count : Members → Nat
  | .nil => 0
  | .cons _ _ rest => count rest + 1

mutual
/-- `TypeConversion.cpp:963-1056`: structures by `ObjectToObject` (537-550), integers by value, then `ValidateBasicType` (598-601). -/
def convert : (d s : Ty) → Mem → (da sa : Nat) → Bool × Mem
  | .int dw ds check, .int sw ss _, mem, da, sa =>
    let v := saturate dw ds (number sw ss (load mem sa sw))
    (check v, store mem da dw (v % 256 ^ dw).toNat)
  | .struct dm, .struct sm, mem, da, sa => if count sm = count dm then convertMembers dm sm mem da sa else (false, mem)
  | _, _, mem, _, _ => (false, mem)
/-- `TypeConversion.cpp:551-602`: the loop over the members. -/
def convertMembers : (dm sm : Members) → Mem → (da sa : Nat) → Bool × Mem
  | .cons od td rd, .cons os ts rs, mem, da, sa =>
    let r := convert td ts mem (da + od) (sa + os)
    if r.1 then convertMembers rd rs r.2 da sa else r
  | _, _, mem, _, _ => (true, mem)
end

end Verif.ObjConvert
